import Verif.Spec.Reader
import Mathlib.Data.List.Basic
/-!
# Decoding what was encoded, and reading a file record by record
-/

namespace Verif.Reader
open Verif Verif.Spec.Reader

theorem leBytes_length : ∀ k v, (leBytes k v).length = k
  | 0, _ => rfl
  | k + 1, v => by simp [leBytes, leBytes_length k]

theorem leU_leBytes : ∀ (k v : Nat) (pre post : List Nat),
    leU (pre ++ leBytes k v ++ post) pre.length k = .ok (v % 256 ^ k)
  | 0, v, pre, post => by simp [leU, Nat.mod_one]
  | k + 1, v, pre, post => by
    have h : (pre ++ leBytes (k + 1) v ++ post)[pre.length]? = some (v % 256) := by simp [leBytes]
    have h2 : pre ++ leBytes (k + 1) v ++ post = (pre ++ [v % 256]) ++ leBytes k (v / 256) ++ post := by simp [leBytes]
    rw [leU, h]
    simp only
    rw [h2, show pre.length + 1 = (pre ++ [v % 256]).length by simp, leU_leBytes k (v / 256)]
    simp only [Res.bind_ok]
    congr 1
    rw [Nat.pow_succ, Nat.mul_comm (256 ^ k) 256, Nat.mod_mul]

theorem toSigned_mod {k : Nat} (hk : 0 < k) {v : Int} (h : -(256 ^ k / 2) ≤ v ∧ v < 256 ^ k / 2) :
    toSigned k (v % 256 ^ k).toNat = v := by
  have hp : (0 : Int) < 256 ^ k := by exact Int.pow_pos (by decide)
  have heven : (256 : Int) ^ k = 2 * (256 ^ k / 2) := by
    cases k with
    | zero => omega
    | succ k => rw [Int.pow_succ]; omega
  have hn : ((256 ^ k / 2 : Nat) : Int) = 256 ^ k / 2 := by
    rw [Int.natCast_ediv]; simp
  generalize hP : (256 : Int) ^ k = P at *
  have hlt := Int.emod_lt_of_pos v hp
  have hnn := Int.emod_nonneg v (Int.ne_of_gt hp)
  unfold toSigned
  rw [hP]
  by_cases h0 : 0 ≤ v
  · have e : v % P = v := Int.emod_eq_of_lt h0 (by omega)
    rw [e, if_pos (by omega)]; omega
  · have e : v % P = v + P := by
      rw [← Int.add_emod_right, Int.emod_eq_of_lt (by omega) (by omega)]
    rw [e, if_neg (by omega)]; omega

theorem leI_field {f : Field} {v : Int} (hw : 0 < f.width) (h : fits f v) (pre post : List Nat) :
    leI (pre ++ fieldBytes f v ++ post) pre.length f.width f.signed = .ok v := by
  have hp : (0 : Int) < 256 ^ f.width := by exact Int.pow_pos (by decide)
  unfold leI fieldBytes
  rw [leU_leBytes]
  simp only [Res.bind_ok]
  have hlt : (v % 256 ^ f.width).toNat < 256 ^ f.width := by
    have h1 := Int.emod_lt_of_pos v hp
    have h2 := Int.emod_nonneg v (Int.ne_of_gt hp)
    have h3 : ((256 ^ f.width : Nat) : Int) = 256 ^ f.width := by simp
    omega
  rw [Nat.mod_eq_of_lt hlt]
  congr 1
  unfold fits at h
  cases hs : f.signed with
  | true => rw [hs] at h; simp only [if_true] at h ⊢; exact toSigned_mod hw h
  | false =>
    rw [hs] at h
    simp only [Bool.false_eq_true, if_false] at h ⊢
    rw [Int.emod_eq_of_lt h.1 h.2]; omega

theorem fieldBytes_length (f : Field) (v : Int) : (fieldBytes f v).length = f.width := leBytes_length _ _

theorem encode_length (L : Layout) (v : Fld → Int) : (encode L v).length = size L := by
  unfold encode size
  rw [List.length_flatMap]
  congr 1
  apply List.map_congr_left
  intro f _; exact fieldBytes_length _ _

/-- the loads of a layout: member by member, from offset `o` -/
def loadsAt : Nat → Layout → List Load
  | _, [] => []
  | o, f :: L => ⟨f.name, o, f.width, f.signed⟩ :: loadsAt (o + f.width) L

theorem leI_load : ∀ {L : Layout} {v : Fld → Int} {o : Nat} {l : Load} (_ : l ∈ loadsAt o L) (_ : Fits L v)
    (_ : ∀ f ∈ L, 0 < f.width) (pre post : List Nat),
    leI (pre ++ encode L v ++ post) (pre.length + (l.off - o)) l.width l.signed = .ok (v l.fld)
  | [], v, o, l, hl, _, _, pre, post => by simp [loadsAt] at hl
  | f :: L, v, o, l, hl, hf, hw, pre, post => by
    have henc : encode (f :: L) v = fieldBytes f (v f.name) ++ encode L v := by simp [encode]
    rw [loadsAt] at hl
    rcases List.mem_cons.1 hl with rfl | hl
    · rw [henc, Nat.sub_self, Nat.add_zero, show pre ++ (fieldBytes f (v f.name) ++ encode L v) ++ post =
        pre ++ fieldBytes f (v f.name) ++ (encode L v ++ post) by simp]
      exact leI_field (hw f (by simp)) (hf f (by simp)) _ _
    · have hge : ∀ {L : Layout} {o : Nat} {l : Load}, l ∈ loadsAt o L → o ≤ l.off := by
        intro L
        induction L with
        | nil => intro o l h; simp [loadsAt] at h
        | cons f L ih =>
          intro o l h
          rw [loadsAt] at h
          rcases List.mem_cons.1 h with rfl | h
          · exact Nat.le_refl _
          · have := ih h; omega
      have hg := hge hl
      have ih := leI_load hl (fun g hg => hf g (by simp [hg])) (fun g hg => hw g (by simp [hg])) (pre ++ fieldBytes f (v f.name)) post
      rw [henc]
      rw [List.length_append, fieldBytes_length, show pre.length + f.width + (l.off - (o + f.width)) = pre.length + (l.off - o) by omega] at ih
      simpa using ih

/-- the members that a list of loads assigns -/
theorem loadAll_layout {L : Layout} {v : Fld → Int} (hf : Fits L v) (hw : ∀ f ∈ L, 0 < f.width) (pre post : List Nat) :
    ∀ (ls : List Load) (_ : ∀ l ∈ ls, l ∈ loadsAt 0 L) (x : Vals),
    ∃ y, loadAll (pre ++ encode L v ++ post) pre.length ls x = .ok y ∧
      ∀ g, y g = if g ∈ ls.map (·.fld) then store g (v g) else x g
  | [], _, x => ⟨x, rfl, by simp⟩
  | l :: ls, h, x => by
    have e := leI_load (h l (by simp)) hf hw pre post
    rw [Nat.sub_zero] at e
    obtain ⟨y, e2, sp⟩ := loadAll_layout hf hw pre post ls (fun l hl => h l (by simp [hl])) (x.set l.fld (store l.fld (v l.fld)))
    refine ⟨y, by rw [loadAll, e]; exact e2, ?_⟩
    intro g
    rw [sp g]
    simp only [List.map_cons, List.mem_cons]
    by_cases h1 : g ∈ ls.map (·.fld)
    · rw [if_pos h1, if_pos (Or.inr h1)]
    · rw [if_neg h1]
      unfold Vals.set
      by_cases h2 : g = l.fld
      · subst h2; simp
      · simp [h2, h1]

theorem sWrap_id {bits : Nat} (hb : 0 < bits) {v : Int} (h : -(2 ^ (bits - 1)) ≤ v ∧ v < 2 ^ (bits - 1)) : sWrap bits v = v := by
  unfold sWrap
  have : (2 : Int) ^ bits = 2 * 2 ^ (bits - 1) := by
    obtain ⟨n, rfl⟩ : ∃ n, bits = n + 1 := ⟨bits - 1, by omega⟩
    rw [Nat.add_sub_cancel, Int.pow_succ]; omega
  rw [this, Int.emod_eq_of_lt (by omega) (by omega)]; omega

/-! ## reading record by record -/

/-- the file `bytes` consists, from `start` on, of records that format `F` decodes to `recs` (seen through `view`) -/
structure Lays {α : Type} (F : Fmt) (bytes : List Nat) (start : Nat) (view : Vals → α) (sk : Bool → Bool → α → Bool)
    (one : α → α) (idOf : α → Nat) (recs : List α) : Prop where
  item : 0 < F.item
  len : bytes.length = start + recs.length * F.item
  dec : ∀ pre a post, recs = pre ++ a :: post → ∀ x, ∃ y, F.decode bytes (start + pre.length * F.item) x = .ok y ∧ view y = a
  skip : ∀ iz fwd y, F.skip iz fwd y = sk iz fwd (view y)
  one : ∀ y, view (y.set .size 1) = one (view y)
  id : ∀ y, (y .id).toNat = idOf (view y)

section
variable {α : Type} {F : Fmt} {bytes : List Nat} {start : Nat} {view : Vals → α} {sk : Bool → Bool → α → Bool} {one : α → α}
  {idOf : α → Nat} {recs : List α}

/-- the reader stands between the records `pre` and `post` -/
structure At (G : Fmt) (B : List Nat) (S : Nat) (R : List α) (rd : Reader) (pre post : List α) : Prop where
  fmt : rd.fmt = G
  bytes : rd.bytes = B
  start : rd.start = S
  recs : R = pre ++ post
  off : rd.off = S + pre.length * G.item

theorem At.eof (L : Lays F bytes start view sk one idOf recs) {rd : Reader} {pre post : List α}
    (h : At F bytes start recs rd pre post) : rd.off ≥ rd.bytes.length ↔ post = [] := by
  have h1 := L.len
  have h2 := L.item
  rw [h.off, h.bytes, h1, h.recs, List.length_append, Nat.add_mul]
  constructor
  · intro hh
    have : post.length * F.item = 0 := by omega
    rcases Nat.mul_eq_zero.1 this with h | h
    · exact List.length_eq_zero_iff.1 h
    · omega
  · rintro rfl; simp

/-- advancing by one record -/
theorem At.next {rd : Reader} {pre post : List α} {a : α} (h : At F bytes start recs rd pre (a :: post)) (hF : rd.fmt = F) :
    At F bytes start recs { rd with off := rd.off + rd.fmt.item } (pre ++ [a]) post := by
  refine ⟨h.fmt, h.bytes, h.start, by simpa using h.recs, ?_⟩
  simp only
  rw [h.off, hF, List.length_append, Nat.add_mul]; simp; omega

theorem readRec_spec (L : Lays F bytes start view sk one idOf recs) : ∀ (fuel : Nat) (rd : Reader) (q : Request) (pre post : List α),
    At F bytes start recs rd pre post → post.length < fuel →
    (post.dropWhile (sk rd.ignoreZero rd.fwd) = [] ∧ ∃ n y, readRec fuel rd q = .ok (1, { rd with off := n }, { q with vals := y, valid := false }) ∧
      At F bytes start recs { rd with off := n } recs []) ∨
    (∃ a t pre' n y, post.dropWhile (sk rd.ignoreZero rd.fwd) = a :: t ∧ readRec fuel rd q = .ok (0, { rd with off := n }, { q with vals := y }) ∧
      view y = a ∧ At F bytes start recs { rd with off := n } pre' t)
  | 0, rd, q, pre, post, h, hf => absurd hf (Nat.not_lt_zero _)
  | fuel + 1, rd, q, pre, [], h, hf => by
    left
    have he := (h.eof L).2 rfl
    refine ⟨rfl, rd.off, q.vals, by rw [readRec, if_pos he], ?_⟩
    have : recs = pre := by simpa using h.recs
    rw [this] at h ⊢
    exact h
  | fuel + 1, rd, q, pre, a :: post, h, hf => by
    have he : ¬ rd.off ≥ rd.bytes.length := fun hh => by have := (h.eof L).1 hh; cases this
    obtain ⟨y, ey, hv⟩ := L.dec pre a post h.recs q.vals
    have hn := h.next h.fmt
    have ey' : rd.fmt.decode rd.bytes rd.off q.vals = .ok y := by rw [h.fmt, h.bytes, h.off]; exact ey
    have hsk : rd.fmt.skip rd.ignoreZero rd.fwd y = sk rd.ignoreZero rd.fwd a := by rw [h.fmt, L.skip, hv]
    rw [readRec, if_neg he, ey']
    simp only [Res.bind_ok, hsk]
    by_cases hs : sk rd.ignoreZero rd.fwd a = true
    · rw [if_pos hs, List.dropWhile_cons, if_pos hs]
      rcases readRec_spec L fuel { rd with off := rd.off + rd.fmt.item } { q with vals := y } (pre ++ [a]) post hn
        (by simp at hf; omega) with ⟨e, n, y', er, ha⟩ | ⟨b, t, pre', n, y', e, er, hv', ha⟩
      · exact Or.inl ⟨e, n, y', er, ha⟩
      · exact Or.inr ⟨b, t, pre', n, y', e, er, hv', ha⟩
    · rw [if_neg hs, List.dropWhile_cons, if_neg hs]
      exact Or.inr ⟨a, post, pre ++ [a], _, y, rfl, rfl, hv, hn⟩

/-- what is still to be delivered: the records that are not skipped, up to the cap -/
def live (sk : Bool → Bool → α → Bool) (rd : Reader) (post : List α) : List α :=
  capped rd.cap rd.nRead (post.filter (fun a => !sk rd.ignoreZero rd.fwd a))

theorem filter_not_dropWhile (p : α → Bool) : ∀ l : List α,
    l.filter (fun a => !p a) = (l.dropWhile p).filter (fun a => !p a)
  | [] => rfl
  | a :: l => by
    rw [List.dropWhile_cons]
    by_cases h : p a = true
    · rw [if_pos h, List.filter_cons, h]; simpa using filter_not_dropWhile p l
    · rw [if_neg h]

theorem dropWhile_head {p : α → Bool} {l : List α} {a : α} {t : List α} (h : l.dropWhile p = a :: t) : p a = false := by
  induction l with
  | nil => simp at h
  | cons b l ih =>
    rw [List.dropWhile_cons] at h
    by_cases hb : p b = true
    · rw [if_pos hb] at h; exact ih h
    · rw [if_neg hb] at h
      simp only [List.cons.injEq] at h
      rw [← h.1]; simpa using hb

/-- the reader represents the list of records still to be delivered -/
def Rep (F : Fmt) (bytes : List Nat) (start : Nat) (recs : List α) (sk : Bool → Bool → α → Bool) (rd : Reader) (l : List α) : Prop :=
  ∃ pre post, At F bytes start recs rd pre post ∧ l = live sk rd post

theorem lt_fuel (L : Lays F bytes start view sk one idOf recs) {rd : Reader} {pre post : List α}
    (h : At F bytes start recs rd pre post) : post.length < rd.fuel := by
  unfold Reader.fuel
  have h1 := L.len
  have h2 : recs.length = pre.length + post.length := by rw [h.recs]; simp
  have h3 : recs.length * 1 ≤ recs.length * F.item := Nat.mul_le_mul_left _ L.item
  rw [h.bytes]; omega

/-- same settings -/
structure Same (rd rd' : Reader) : Prop where
  iz : rd'.ignoreZero = rd.ignoreZero
  is : rd'.ignoreSize = rd.ignoreSize
  cap : rd'.cap = rd.cap
  fwd : rd'.fwd = rd.fwd
  sampler : rd'.sampler = rd.sampler
  bytes : rd'.bytes = rd.bytes

theorem readPre_spec (L : Lays F bytes start view sk one idOf recs) {rd : Reader} {l : List α} (q : Request)
    (h : Rep F bytes start recs sk rd l) :
    (l = [] ∧ ∃ b rd' q', readPre rd q = .ok (b, 1, rd', q') ∧ Same rd rd' ∧ q'.valid = false ∧ Rep F bytes start recs sk rd' []) ∨
    (∃ a t rd' q', l = a :: t ∧ readPre rd q = .ok (false, 0, rd', q') ∧ Same rd rd' ∧ q'.valid = true ∧ q'.hv = 0 ∧
      view q'.vals = a ∧ Rep F bytes start recs sk rd' t) := by
  obtain ⟨pre, post, hat, rfl⟩ := h
  unfold readPre
  by_cases he : rd.off ≥ rd.bytes.length
  · rw [if_pos he]
    have hp := (hat.eof L).1 he
    have hl : live sk rd post = [] := by subst hp; unfold live capped; simp
    exact Or.inl ⟨hl, true, rd, { q with valid := false }, rfl, ⟨rfl, rfl, rfl, rfl, rfl, rfl⟩, rfl, ⟨pre, post, hat, hl.symm⟩⟩
  · rw [if_neg he]
    by_cases hc : rd.cap > 1 ∧ (rd.nRead : Int) ≥ rd.cap
    · rw [if_pos hc]
      have hl : live sk rd post = [] := by
        unfold live capped
        rw [if_pos hc.1, show (rd.cap - (rd.nRead : Int)).toNat = 0 by omega, List.take_zero]
      exact Or.inl ⟨hl, true, rd, { q with valid := false }, rfl, ⟨rfl, rfl, rfl, rfl, rfl, rfl⟩, rfl, ⟨pre, post, hat, hl.symm⟩⟩
    · rw [if_neg hc]
      have hat1 : At F bytes start recs { rd with nRead := rd.nRead + 1 } pre post := ⟨hat.fmt, hat.bytes, hat.start, hat.recs, hat.off⟩
      have hfuel := lt_fuel L hat
      rcases readRec_spec L rd.fuel { rd with nRead := rd.nRead + 1 } { vals := q.vals.set .ttl (-1), hv := 0, valid := true } pre post hat1
        hfuel with ⟨e, n, y, er, ha⟩ | ⟨a, t, pre', n, y, e, er, hv, ha⟩
      · rw [er]
        refine Or.inl ⟨?_, _, _, _, rfl, ⟨rfl, rfl, rfl, rfl, rfl, rfl⟩, rfl, ?_⟩
        · unfold live
          have e' : post.dropWhile (sk rd.ignoreZero rd.fwd) = [] := e
          rw [filter_not_dropWhile, e']; unfold capped; simp
        · exact ⟨recs, [], ha, by unfold live capped; simp⟩
      · rw [er]
        have e' : post.dropWhile (sk rd.ignoreZero rd.fwd) = a :: t := e
        have hsk := dropWhile_head e'
        refine Or.inr ⟨a, _, _, _, ?_, rfl, ⟨rfl, rfl, rfl, rfl, rfl, rfl⟩, rfl, rfl, hv, ⟨pre', t, ha, rfl⟩⟩
        unfold live
        rw [filter_not_dropWhile, e', List.filter_cons]
        simp only [hsk, Bool.not_false, if_true]
        unfold capped
        by_cases h1 : rd.cap > 1
        · rw [if_pos h1, if_pos h1]
          have h2 : (rd.nRead : Int) < rd.cap := by
            by_contra hh; exact hc ⟨h1, by omega⟩
          rw [show (rd.cap - (rd.nRead : Int)).toNat = (rd.cap - ((rd.nRead + 1 : Nat) : Int)).toNat + 1 by omega]
          rfl
        · rw [if_neg h1, if_neg h1]

/-- what `ignore_obj_size` makes of a record -/
def shown (one : α → α) (rd : Reader) (a : α) : α := if rd.ignoreSize then one a else a

theorem view_apply (L : Lays F bytes start view sk one idOf recs) (rd : Reader) (q : Request) :
    view (applyIgnoreSize rd q).vals = shown one rd (view q.vals) := by
  unfold applyIgnoreSize shown
  split
  · exact L.one _
  · rfl

theorem view_apply2 (rd : Reader) (q : Request) :
    (applyIgnoreSize rd (applyIgnoreSize rd q)).vals = (applyIgnoreSize rd q).vals := by
  unfold applyIgnoreSize
  by_cases h : rd.ignoreSize = true
  · simp only [if_pos h]
    funext g
    unfold Vals.set
    by_cases h : g = .size <;> simp [h]
  · simp only [if_neg h]

theorem valid_apply (rd : Reader) (q : Request) : (applyIgnoreSize rd q).valid = q.valid := by
  unfold applyIgnoreSize; split <;> rfl

theorem hv_apply (rd : Reader) (q : Request) : (applyIgnoreSize rd q).hv = q.hv := by
  unfold applyIgnoreSize; split <;> rfl

theorem id_apply (rd : Reader) (q : Request) : (applyIgnoreSize rd q).vals .id = q.vals .id := by
  unfold applyIgnoreSize; split
  · simp [Vals.set]
  · rfl

theorem apply_same {rd rd' : Reader} (h : Same rd rd') (q : Request) : applyIgnoreSize rd' q = applyIgnoreSize rd q := by
  unfold applyIgnoreSize; rw [h.is]

theorem readPlain_spec (L : Lays F bytes start view sk one idOf recs) {rd : Reader} {l : List α} (q : Request)
    (h : Rep F bytes start recs sk rd l) :
    (l = [] ∧ ∃ rd' q', readPlain rd q = .ok (1, rd', q') ∧ Same rd rd' ∧ q'.valid = false ∧ Rep F bytes start recs sk rd' []) ∨
    (∃ a t rd' q', l = a :: t ∧ readPlain rd q = .ok (0, rd', applyIgnoreSize rd q') ∧ Same rd rd' ∧ q'.valid = true ∧ q'.hv = 0 ∧
      view q'.vals = a ∧ Rep F bytes start recs sk rd' t) := by
  unfold readPlain
  rcases readPre_spec L q h with ⟨rfl, b, rd', q', e, sm, hv, rep⟩ | ⟨a, t, rd', q', rfl, e, sm, hv, hh, va, rep⟩
  · left
    refine ⟨rfl, ?_⟩
    rw [e]
    cases b with
    | true => exact ⟨rd', q', rfl, sm, hv, rep⟩
    | false => exact ⟨rd', applyIgnoreSize rd' q', rfl, sm, by rw [valid_apply]; exact hv, rep⟩
  · right
    rw [e]
    refine ⟨a, t, rd', q', rfl, ?_, sm, hv, hh, va, rep⟩
    simp [apply_same sm]

/-- the samplers whose ratio is not zero -/
def SOk : Sampler → Prop
  | .spatial inv => 0 < inv
  | .temporal _ _ => True

theorem Same.trans {a b c : Reader} (h1 : Same a b) (h2 : Same b c) : Same a c :=
  ⟨h2.iz.trans h1.iz, h2.is.trans h1.is, h2.cap.trans h1.cap, h2.fwd.trans h1.fwd, h2.sampler.trans h1.sampler, h2.bytes.trans h1.bytes⟩

/-- one decision of the sampler -/
theorem sample_spec (hash : Nat → Nat) {s : Sampler} (hs : SOk s) (q : Request) (hv : q.hv = 0) (a : α)
    (hid : (q.vals .id).toNat = idOf a) (l : List α) :
    ∃ b s' h', s.sample hash q = .ok (b, s', { q with hv := h' }) ∧ SOk s' ∧
      sampled hash idOf (some s) (a :: l) = if b then a :: sampled hash idOf (some s') l else sampled hash idOf (some s') l := by
  cases s with
  | spatial inv =>
    have hi : inv ≠ 0 := Nat.ne_of_gt hs
    refine ⟨decide (hash (idOf a) % inv = 0), .spatial inv, hash (idOf a), ?_, hs, ?_⟩
    · unfold Sampler.sample Sampling.spatialSample
      simp [hv, hi, hid]
    · simp only [sampled, List.filter_cons]
  | temporal inv n =>
    unfold Sampler.sample Sampling.temporalSample
    by_cases h : n + 1 = inv
    · refine ⟨true, .temporal inv 0, q.hv, by simp [h], trivial, ?_⟩
      rw [sampled, if_pos h]; rfl
    · refine ⟨false, .temporal inv (n + 1), q.hv, by simp [h], trivial, ?_⟩
      rw [sampled, if_neg h]; rfl

theorem sample_ok (hash : Nat → Nat) {s : Sampler} (hs : SOk s) (q : Request) :
    ∃ b s' h', s.sample hash q = .ok (b, s', { q with hv := h' }) ∧ SOk s' := by
  cases s with
  | spatial inv =>
    have hi : inv ≠ 0 := Nat.ne_of_gt hs
    by_cases hq : q.hv = 0
    · exact ⟨decide (hash (q.vals .id).toNat % inv = 0), .spatial inv, hash (q.vals .id).toNat, by unfold Sampler.sample Sampling.spatialSample; simp [hi, hq], hs⟩
    · exact ⟨decide (q.hv % inv = 0), .spatial inv, q.hv, by unfold Sampler.sample Sampling.spatialSample; simp [hi, hq], hs⟩
  | temporal inv n => exact ⟨_, _, q.hv, rfl, trivial⟩

/-- the sampling loop from a record `a` just read -/
theorem sampleLoop_spec (L : Lays F bytes start view sk one idOf recs) (hash : Nat → Nat) :
    ∀ (fuel : Nat) (s : Sampler) (rd : Reader) (q : Request) (a : α) (l : List α), SOk s → rd.fwd = true → l.length < fuel →
    Rep F bytes start recs sk rd l → q.valid = true → q.hv = 0 → (q.vals .id).toNat = idOf a →
    view (applyIgnoreSize rd q).vals = shown one rd a →
    (sampled hash idOf (some s) (a :: l) = [] ∧ ∃ s' rd' q', sampleLoop hash fuel s rd 0 q = .ok (true, 1, s', rd', q') ∧ SOk s' ∧
      Same rd rd' ∧ q'.valid = false ∧ Rep F bytes start recs sk rd' []) ∨
    (∃ b l' s' rd' q', sampled hash idOf (some s) (a :: l) = b :: sampled hash idOf (some s') l' ∧
      sampleLoop hash fuel s rd 0 q = .ok (false, 0, s', rd', q') ∧ SOk s' ∧ Same rd rd' ∧ q'.valid = true ∧ l'.length ≤ l.length ∧
      view (applyIgnoreSize rd q').vals = shown one rd b ∧ Rep F bytes start recs sk rd' l')
  | 0, s, rd, q, a, l, _, _, hf, _, _, _, _, _ => absurd hf (Nat.not_lt_zero _)
  | fuel + 1, s, rd, q, a, l, hs, hfwd, hf, rep, val, hv0, hid, hvw => by
    obtain ⟨b, s1, h1, es, hs1, hsm⟩ := sample_spec hash hs q hv0 a hid l
    rw [sampleLoop, es]
    simp only [Res.bind_ok]
    cases b with
    | true =>
      right
      simp only [if_true] at hsm ⊢
      have hsh : view (applyIgnoreSize rd { q with hv := h1 }).vals = shown one rd a := by
        rw [← hvw]; unfold applyIgnoreSize; split <;> rfl
      exact ⟨a, l, s1, rd, _, hsm, rfl, hs1, ⟨rfl, rfl, rfl, rfl, rfl, rfl⟩, val, Nat.le_refl _, hsh, rep⟩
    | false =>
      simp only [Bool.false_eq_true, if_false] at hsm ⊢
      rw [if_pos hfwd]
      rcases readPlain_spec L { q with hv := h1 } rep with ⟨rfl, rd2, q2, e2, sm2, v2, rep2⟩ | ⟨c, t, rd2, q2, rfl, e2, sm2, v2, hh2, vc, rep2⟩
      · left
        refine ⟨?_, s1, rd2, q2, ?_, hs1, sm2, v2, rep2⟩
        · rw [hsm]; cases s1 <;> simp [sampled]
        · rw [e2]; simp
      · rw [e2]
        simp only [Res.bind_ok, ne_eq, not_true_eq_false, if_false]
        have hl : (c :: t).length = t.length + 1 := rfl
        have hvc : view (applyIgnoreSize rd2 (applyIgnoreSize rd q2)).vals = shown one rd2 c := by
          rw [← apply_same sm2 q2, view_apply2, view_apply L, vc]
        have hidc : ((applyIgnoreSize rd q2).vals .id).toNat = idOf c := by rw [id_apply, L.id, vc]
        rcases sampleLoop_spec L hash fuel s1 rd2 (applyIgnoreSize rd q2) c t hs1 (by rw [sm2.fwd]; exact hfwd) (by omega) rep2
          (by rw [valid_apply]; exact v2) (by rw [hv_apply]; exact hh2) hidc hvc with
          ⟨e3, s3, rd3, q3, el, hs3, sm3, v3, rep3⟩ | ⟨b, l3, s3, rd3, q3, e3, el, hs3, sm3, v3, le3, vw3, rep3⟩
        · left
          exact ⟨by rw [hsm, e3], s3, rd3, q3, el, hs3, sm2.trans sm3, v3, rep3⟩
        · right
          refine ⟨b, l3, s3, rd3, q3, by rw [hsm, e3], el, hs3, sm2.trans sm3, v3, by omega, ?_, rep3⟩
          rw [← apply_same sm2]
          rw [vw3]
          unfold shown; rw [sm2.is]

theorem Rep.setSampler {rd : Reader} {l : List α} (h : Rep F bytes start recs sk rd l) (s : Option Sampler) :
    Rep F bytes start recs sk { rd with sampler := s } l := by
  obtain ⟨pre, post, a, e⟩ := h
  exact ⟨pre, post, ⟨a.fmt, a.bytes, a.start, a.recs, a.off⟩, e⟩

theorem rep_length (L : Lays F bytes start view sk one idOf recs) {rd : Reader} {l : List α} (h : Rep F bytes start recs sk rd l) :
    l.length < rd.fuel := by
  obtain ⟨pre, post, a, rfl⟩ := h
  have := lt_fuel L a
  have h1 : (live sk rd post).length ≤ post.length := by
    unfold live capped
    have := List.length_filter_le (fun a => !sk rd.ignoreZero rd.fwd a) post
    split
    · rw [List.length_take]; omega
    · exact this
  omega

/-- settings other than the sampler -/
structure SameS (rd rd' : Reader) : Prop where
  is : rd'.ignoreSize = rd.ignoreSize
  fwd : rd'.fwd = rd.fwd
  bytes : rd'.bytes = rd.bytes

def SOkO : Option Sampler → Prop
  | none => True
  | some s => SOk s

theorem readOne_spec (L : Lays F bytes start view sk one idOf recs) (hash : Nat → Nat) {rd : Reader} {l : List α} (q : Request)
    (hfwd : rd.fwd = true) (hs : SOkO rd.sampler) (h : Rep F bytes start recs sk rd l) :
    (sampled hash idOf rd.sampler l = [] ∧ ∃ rd' q', readOne hash rd q = .ok (1, rd', q') ∧ SameS rd rd' ∧ q'.valid = false) ∨
    (∃ b l' rd' q', sampled hash idOf rd.sampler l = b :: sampled hash idOf rd'.sampler l' ∧ readOne hash rd q = .ok (0, rd', q') ∧
      SameS rd rd' ∧ SOkO rd'.sampler ∧ q'.valid = true ∧ view q'.vals = shown one rd b ∧ l'.length < l.length ∧
      Rep F bytes start recs sk rd' l') := by
  unfold readOne
  cases hsm : rd.sampler with
  | none =>
    simp only
    rcases readPlain_spec L q h with ⟨rfl, rd', q', e, sm, hv, rep⟩ | ⟨a, t, rd', q', rfl, e, sm, hv, hh, va, rep⟩
    · exact Or.inl ⟨rfl, rd', q', e, ⟨sm.is, sm.fwd, sm.bytes⟩, hv⟩
    · refine Or.inr ⟨a, t, rd', _, ?_, e, ⟨sm.is, sm.fwd, sm.bytes⟩, ?_, by rw [valid_apply]; exact hv, by rw [view_apply L, va], by simp, rep⟩
      · rw [sm.sampler, hsm]; simp [sampled]
      · rw [sm.sampler, hsm]; trivial
  | some s =>
    have hss : SOk s := by rw [hsm] at hs; exact hs
    simp only
    rcases readPre_spec L q h with ⟨rfl, b, rd', q', e, sm, hv, rep⟩ | ⟨a, t, rd', q', rfl, e, sm, hv, hh, va, rep⟩
    · left
      refine ⟨by cases s <;> rfl, ?_⟩
      rw [e]
      cases b with
      | true => exact ⟨rd', q', rfl, ⟨sm.is, sm.fwd, sm.bytes⟩, hv⟩
      | false =>
        simp only [Res.bind_ok, Bool.false_eq_true, if_false]
        obtain ⟨b1, s1, h1, es, hs1⟩ := sample_ok hash hss q'
        have hfu : ∃ n, rd.fuel = n + 1 := ⟨rd.bytes.length, rfl⟩
        obtain ⟨n, hn⟩ := hfu
        rw [hn, sampleLoop, es]
        simp only [Res.bind_ok]
        cases b1 with
        | true =>
          exact ⟨_, _, rfl, ⟨sm.is, sm.fwd, sm.bytes⟩, by rw [valid_apply]; exact hv⟩
        | false =>
          have rep0 := rep.setSampler none
          rcases readPlain_spec L { q' with hv := h1 } rep0 with ⟨_, rd2, q2, e2, sm2, v2, rep2⟩ | ⟨c, t, rd2, q2, hc, _⟩
          · simp only [Bool.false_eq_true, if_false]
            rw [if_pos (show rd'.fwd = true by rw [sm.fwd]; exact hfwd)]
            rw [e2]
            exact ⟨_, _, rfl, ⟨sm2.is.trans sm.is, sm2.fwd.trans sm.fwd, sm2.bytes.trans sm.bytes⟩, v2⟩
          · cases hc
    · rw [e]
      simp only [Res.bind_ok, Bool.false_eq_true, if_false]
      have rep0 := rep.setSampler none
      have hlen : t.length < rd.fuel := by have := rep_length L h; simp at this; omega
      have hw : view (applyIgnoreSize { rd' with sampler := none } q').vals = shown one { rd' with sampler := none } a := by
        rw [view_apply L, va]
      rcases sampleLoop_spec L hash rd.fuel s { rd' with sampler := none } q' a t hss (by simp only; rw [sm.fwd]; exact hfwd) hlen rep0 hv hh
        (by rw [L.id, va]) hw with ⟨e3, s3, rd3, q3, el, hs3, sm3, v3, rep3⟩ | ⟨b, l3, s3, rd3, q3, e3, el, hs3, sm3, v3, le3, vw3, rep3⟩
      · left
        rw [el]
        exact ⟨e3, _, q3, rfl, ⟨sm3.is.trans sm.is, sm3.fwd.trans sm.fwd, sm3.bytes.trans sm.bytes⟩, v3⟩
      · right
        rw [el]
        refine ⟨b, l3, { rd3 with sampler := some s3 }, applyIgnoreSize rd3 q3, e3, rfl,
          ⟨sm3.is.trans sm.is, sm3.fwd.trans sm.fwd, sm3.bytes.trans sm.bytes⟩, hs3, by rw [valid_apply]; exact v3, ?_, by simp; omega, rep3.setSampler _⟩
        rw [apply_same sm3, vw3]
        unfold shown; simp only; rw [sm.is]

/-- a client that reads to the end gets exactly the sampled records, in order, all valid, then end-of-trace -/
theorem readAll_spec (L : Lays F bytes start view sk one idOf recs) (hash : Nat → Nat) : ∀ (fuel : Nat) (rd : Reader) (q : Request) (l : List α),
    rd.fwd = true → SOkO rd.sampler → Rep F bytes start recs sk rd l → l.length < fuel →
    ∃ qs rd', readAll hash fuel rd q = .ok (qs, rd') ∧ (∀ q ∈ qs, q.valid = true) ∧
      qs.map (fun q => view q.vals) = (sampled hash idOf rd.sampler l).map (shown one rd)
  | 0, rd, q, l, _, _, _, hf => absurd hf (Nat.not_lt_zero _)
  | fuel + 1, rd, q, l, hfwd, hs, rep, hf => by
    rw [readAll]
    rcases readOne_spec L hash q hfwd hs rep with ⟨e, rd', q', er, _⟩ | ⟨b, l', rd', q', e, er, sm, hs', hv, vw, hl, rep'⟩
    · rw [er, e]
      exact ⟨[], rd', rfl, by simp, rfl⟩
    · rw [er, e]
      simp only [Res.bind_ok, ne_eq, not_true_eq_false, if_false]
      obtain ⟨qs, rd'', ea, va, ma⟩ := readAll_spec L hash fuel rd' q' l' (by rw [sm.fwd]; exact hfwd) hs' rep' (by omega)
      rw [ea]
      refine ⟨q' :: qs, rd'', rfl, ?_, ?_⟩
      · intro p hp
        rcases List.mem_cons.1 hp with rfl | hp
        · exact hv
        · exact va p hp
      · rw [List.map_cons, List.map_cons, vw, ma]
        congr 1
        apply List.map_congr_left
        intro c _
        unfold shown; rw [sm.is]

end

end Verif.Reader
