import Verif.Spec.OracleGen
import Mathlib.Tactic.SplitIfs
/-!
# Proofs about the generator of oracle traces
-/

namespace Verif.OracleGen
open Verif Verif.Spec Verif.Spec.Oracle
set_option linter.unusedSimpArgs false

/-- what the map holds for an object after the requests `ks` (in file order) -/
def info (f : Format) (bf : Bool) : List Rq → ObjId → Option (Int × Int)
  | [], _ => none
  | r :: ks, id =>
    if r.id = id then
      some (if f.twr && isWrite r.op then -1 else (ks.length : Int),
        if bf then if (init f r).ttl ≠ 0 then (init f r).ttl else match info f bf ks id with | some p => p.2 | none => 0 else 0)
    else info f bf ks id

/-- the record for `r` when the requests after it are `ks` -/
def record (f : Format) (bf : Bool) (r : Rq) (ks : List Rq) : Ent :=
  { init f r with
    ttl := if bf then if (init f r).ttl ≠ 0 then (init f r).ttl else match info f bf ks r.id with | some p => if f.hasTtl then p.2 else (init f r).ttl | none => (init f r).ttl else (init f r).ttl
    next := match info f bf ks r.id with | none => -1 | some p => p.1 }

def records (f : Format) (bf : Bool) : List Rq → List Ent
  | [] => []
  | r :: ks => record f bf r ks :: records f bf ks

structure Inv (f : Format) (bf : Bool) (ks : List Rq) (st : St) : Prop where
  n : st.n = ks.length
  last : ∀ id, st.last id = info f bf ks id
  temp : st.temp.reverse = records f bf ks

theorem body_ok {f : Format} {bf : Bool} {bits : List Bool} {total : Nat} {ks : List Rq} {st : St} (r : Rq) (h : Inv f bf ks st)
    (hb : f.twr = true → bits.length = total) (hc : st.cur < total) :
    ∃ st', body f bf bits total r st = .ok st' ∧ Inv f bf (r :: ks) st' ∧ st'.cur = st.cur := by
  have key : ∀ req : Rq, req.id = r.id → Inv f bf (r :: ks) { st with
      n := st.n + 1
      last := fun i => if i = req.id then some (if f.twr && isWrite (init f r).op then -1 else (st.n : Int),
        (if bf then if (init f r).ttl ≠ 0 then ((init f r).ttl, (init f r).ttl)
          else match st.last (init f r).id with
          | some p => (if f.hasTtl then p.2 else (init f r).ttl, p.2)
          | none => ((init f r).ttl, 0) else ((init f r).ttl, (0 : Int))).2) else st.last i
      temp := st.temp ++ [{ init f r with ttl := (if bf then if (init f r).ttl ≠ 0 then ((init f r).ttl, (init f r).ttl)
          else match st.last (init f r).id with
          | some p => (if f.hasTtl then p.2 else (init f r).ttl, p.2)
          | none => ((init f r).ttl, 0) else ((init f r).ttl, (0 : Int))).1, next := match st.last (init f r).id with
          | none => -1
          | some p => p.1 }] } := by
    intro req hreq
    have hid : (init f r).id = r.id := rfl
    have hop : (init f r).op = r.op := rfl
    refine ⟨?_, ?_, ?_⟩
    · show st.n + 1 = _
      rw [h.n, List.length_cons]
    · intro id
      simp only [info, h.last, hreq, hid, hop, h.n]
      by_cases e : r.id = id
      · rw [if_pos e, if_pos e.symm]
        subst e
        cases bf
        · rfl
        · by_cases ht : (init f r).ttl ≠ 0
          · simp only [if_pos ht, if_true]
          · simp only [if_neg ht, if_true]
            cases info f true ks r.id <;> rfl
      · rw [if_neg e, if_neg (fun x => e x.symm)]
    · show (st.temp ++ [_]).reverse = _
      rw [List.reverse_append, h.temp]
      simp only [List.reverse_cons, List.reverse_nil, List.nil_append, List.cons_append, records, record, h.last, hid]
      congr 2
      cases bf
      · rfl
      · by_cases ht : (init f r).ttl ≠ 0
        · simp only [if_pos ht, if_true]
        · simp only [if_neg ht, if_true]
          cases info f true ks r.id <;> rfl
  unfold body
  by_cases ht : f.twr = true
  · have hlt : total - st.cur - 1 < bits.length := by rw [hb ht]; omega
    simp only [ht, if_true, List.getElem?_eq_getElem hlt]
    refine ⟨_, rfl, ?_, rfl⟩
    have := key (if bits[total - st.cur - 1] = true then { r with op := 1 } else r) (by split <;> rfl)
    simp only [ht] at this
    exact this
  · have ht' : f.twr = false := by simpa using ht
    simp only [ht', Bool.false_eq_true, if_false]
    refine ⟨_, rfl, ?_, rfl⟩
    have := key r rfl
    simp only [ht'] at this
    exact this

/-- what the loop keeps -/
def kept (f : Format) (rs : List Rq) : List Rq := rs.filter fun r => !isSizeZero f (init f r)

theorem reads_ok {f : Format} {bf : Bool} {bits : List Bool} {total : Nat} (hb : f.twr = true → bits.length = total) : ∀ (above : List Rq) (ks : List Rq) (st : St),
    Inv f bf ks st → st.cur + 1 + above.length = total →
    ∃ st', reads f bf bits total above st = .ok st' ∧ Inv f bf ((kept f above).reverse ++ ks) st'
  | [], ks, st, h, hc => ⟨st, by unfold reads; rw [if_pos (by simpa using hc)], by simpa [kept] using h⟩
  | r :: above, ks, st, h, hc => by
    rw [List.length_cons] at hc
    unfold reads
    by_cases hz : isSizeZero f (init f r) = true
    · simp only [hz, if_true]
      obtain ⟨st', h1, h2⟩ := reads_ok hb above ks { st with cur := st.cur + 1 } ⟨h.n, h.last, h.temp⟩ (by show st.cur + 1 + 1 + _ = _; omega)
      refine ⟨st', h1, ?_⟩
      have : kept f (r :: above) = kept f above := by simp [kept, hz]
      rw [this]; exact h2
    · simp only [hz, Bool.false_eq_true, if_false]
      obtain ⟨s1, h1, h2, h3⟩ := body_ok (f := f) (bf := bf) (bits := bits) (total := total) (ks := ks) (st := { st with cur := st.cur + 1 }) r
        ⟨h.n, h.last, h.temp⟩ hb (by show st.cur + 1 < total; omega)
      rw [h1]
      obtain ⟨st', h4, h5⟩ := reads_ok hb above (r :: ks) s1 h2 (by rw [h3]; show st.cur + 1 + 1 + _ = _; omega)
      refine ⟨st', h4, ?_⟩
      have : kept f (r :: above) = r :: kept f above := by simp [kept, hz]
      rw [this, List.reverse_cons, List.append_assoc]
      exact h5

theorem missFill_ok : ∀ (rs : List Rq) (n : Nat) (miss : ObjId → Option Int) (bits : List Bool), n + rs.length = bits.length + 1 →
    (∀ r, rs.getLast? = some r → ¬ Stores r) → ∃ b, missFill n miss bits rs = .ok b ∧ b.length = bits.length
  | [], n, miss, bits, _, _ => ⟨bits, rfl, rfl⟩
  | r :: rs, n, miss, bits, hn, hl => by
    rw [List.length_cons] at hn
    have hl' : ∀ q, rs.getLast? = some q → ¬ Stores q := by
      intro q hq
      apply hl
      cases rs with
      | nil => cases hq
      | cons a t => rw [List.getLast?_cons_cons]; exact hq
    unfold missFill
    by_cases ho : (3 ≤ r.op && r.op ≤ 6) = true
    · simp only [ho, if_true]
      have hne : rs ≠ [] := by
        rintro rfl
        refine hl r rfl ?_
        simp only [Bool.and_eq_true, decide_eq_true_eq] at ho
        unfold Stores
        simp only [List.mem_cons, List.not_mem_nil, or_false]
        omega
      have hlt : n < bits.length := by
        have := List.length_pos_iff.2 hne
        omega
      split
      · split
        · obtain ⟨b, h1, h2⟩ := missFill_ok rs (n + 1) _ (bits.set n true) (by rw [List.length_set]; omega) hl'
          exact ⟨b, h1, by rw [h2, List.length_set]⟩
        · exact missFill_ok rs (n + 1) _ bits (by omega) hl'
      · exact missFill_ok rs (n + 1) _ bits (by omega) hl'
    · simp only [ho, Bool.false_eq_true, if_false]
      exact missFill_ok rs (n + 1) _ bits (by omega) hl'

/-! ## reversing -/

/-- the size the map or an earlier record gives -/
def look (sizes : ObjId → Option Nat) (before : List Ent) (id : ObjId) : Option Nat :=
  match sizes id with
  | some z => some z
  | none => (before.find? fun q => q.id = id).map fun q => (asInt q.size % (u32 : Nat)).toNat

def final (f : Format) (total : Nat) (rm : Bool) (z : Option Nat) (e : Ent) : Ent :=
  let e1 := if e.next ≠ -1 then { e with next := (total : Int) - 1 - e.next } else e
  if rm then match z with
    | some z => setSize f e1 (asInt z)
    | none => e1
  else e1

theorem rewrite_length (f : Format) (total : Nat) (rm : Bool) : ∀ (es : List Ent) (sizes : ObjId → Option Nat), (rewrite f total rm sizes es).length = es.length
  | [], _ => rfl
  | e :: es, sizes => by
    unfold rewrite
    simp only
    split_ifs <;> (try split) <;> simp only [List.length_cons, rewrite_length f total rm es]

theorem rewrite_get (f : Format) (total : Nat) (rm : Bool) : ∀ (es : List Ent) (sizes : ObjId → Option Nat) (i : Nat) (e : Ent), es[i]? = some e →
    (rewrite f total rm sizes es)[i]? = some (final f total rm (look sizes (es.take i) e.id) e)
  | [], _, i, e, h => by simp at h
  | e0 :: es, sizes, 0, e, h => by
    simp only [List.getElem?_cons_zero, Option.some.injEq] at h
    subst h
    have hid : (if e0.next ≠ -1 then { e0 with next := (total : Int) - 1 - e0.next } else e0).id = e0.id := by split <;> rfl
    unfold rewrite final look
    simp only [List.take_zero, List.find?_nil, Option.map_none, hid]
    cases rm
    · simp
    · simp only [if_true]
      cases hs : sizes e0.id <;> simp
  | e0 :: es, sizes, i + 1, e, h => by
    simp only [List.getElem?_cons_succ] at h
    have hid : (if e0.next ≠ -1 then { e0 with next := (total : Int) - 1 - e0.next } else e0).id = e0.id := by split <;> rfl
    have hsz : (if e0.next ≠ -1 then { e0 with next := (total : Int) - 1 - e0.next } else e0).size = e0.size := by split <;> rfl
    unfold rewrite
    simp only [hid, hsz]
    cases rm
    · simp only [Bool.false_eq_true, if_false, List.getElem?_cons_succ]
      rw [rewrite_get f total false es sizes i e h]
      rfl
    · simp only [if_true]
      cases hs : sizes e0.id with
      | some z =>
        simp only [List.getElem?_cons_succ]
        rw [rewrite_get f total true es sizes i e h]
        congr 2
        unfold look
        cases hse : sizes e.id with
        | some z => rfl
        | none =>
          have : e0.id ≠ e.id := by rintro x; rw [x, hse] at hs; cases hs
          simp only [List.take_succ_cons, List.find?_cons, this, decide_false]
      | none =>
        simp only [List.getElem?_cons_succ]
        rw [rewrite_get f total true es _ i e h]
        congr 2
        unfold look
        by_cases he : e0.id = e.id
        · have hs' : sizes e.id = none := he ▸ hs
          have hd : decide (e0.id = e.id) = true := by simpa using he
          simp only []
          rw [if_pos he.symm]
          simp only [List.take_succ_cons, List.find?_cons, hd, hs', Option.map_some]
        · have hd : decide (e0.id = e.id) = false := by simpa using he
          simp only []
          rw [if_neg (fun x : e.id = e0.id => he x.symm)]
          simp only [List.take_succ_cons, List.find?_cons, hd]

/-! ## the records -/

theorem records_length (f : Format) (bf : Bool) : ∀ ks, (records f bf ks).length = ks.length
  | [] => rfl
  | _ :: ks => by simp only [records, List.length_cons, records_length f bf ks]

theorem records_get (f : Format) (bf : Bool) : ∀ (ks : List Rq) (i : Nat) (r : Rq), ks[i]? = some r → (records f bf ks)[i]? = some (record f bf r (ks.drop (i + 1)))
  | [], i, r, h => by simp at h
  | q :: ks, 0, r, h => by
    simp only [List.getElem?_cons_zero, Option.some.injEq] at h
    subst h
    rfl
  | q :: ks, i + 1, r, h => by
    simp only [List.getElem?_cons_succ] at h
    simp only [records, List.getElem?_cons_succ, List.drop_succ_cons]
    exact records_get f bf ks i r h

theorem info_none {f : Format} {bf : Bool} : ∀ {ks : List Rq} {id : ObjId}, info f bf ks id = none → ∀ (j : Nat) (q : Rq), ks[j]? = some q → q.id ≠ id
  | [], id, _, j, q, h => by simp at h
  | r :: ks, id, h, j, q, hq => by
    unfold info at h
    split at h
    · cases h
    · rename_i hne
      cases j with
      | zero =>
        simp only [List.getElem?_cons_zero, Option.some.injEq] at hq
        subst hq; exact hne
      | succ j =>
        simp only [List.getElem?_cons_succ] at hq
        exact info_none h j q hq

theorem info_some {f : Format} {bf : Bool} : ∀ {ks : List Rq} {id : ObjId} {p : Int × Int}, info f bf ks id = some p →
    ∃ (j : Nat) (q : Rq), ks[j]? = some q ∧ q.id = id ∧ (∀ (m : Nat) (u : Rq), m < j → ks[m]? = some u → u.id ≠ id) ∧
      p.1 = if f.twr && isWrite q.op then -1 else (ks.length : Int) - 1 - j
  | [], id, p, h => by cases h
  | r :: ks, id, p, h => by
    unfold info at h
    split at h
    · rename_i he
      refine ⟨0, r, rfl, he, fun m u hm => by omega, ?_⟩
      simp only [Option.some.injEq] at h
      rw [← h]
      show (if _ then _ else _) = _
      split
      · rfl
      · rw [List.length_cons]; omega
    · rename_i hne
      obtain ⟨j, q, h1, h2, h3, h4⟩ := info_some h
      refine ⟨j + 1, q, by simpa using h1, h2, ?_, ?_⟩
      · intro m u hm hu
        cases m with
        | zero =>
          simp only [List.getElem?_cons_zero, Option.some.injEq] at hu
          subst hu; exact hne
        | succ m =>
          simp only [List.getElem?_cons_succ] at hu
          exact h3 m u (by omega) hu
      · rw [h4, List.length_cons]
        split
        · rfl
        · omega

theorem isWrite_iff (r : Rq) : isWrite r.op = true ↔ Overwrites r := by
  unfold isWrite Overwrites
  simp only [Bool.or_eq_true, Bool.and_eq_true, decide_eq_true_eq, List.mem_cons, List.not_mem_nil, or_false]
  omega

def flip (total : Nat) (v : Int) : Int := if v ≠ -1 then (total : Int) - 1 - v else v

theorem next_ok {f : Format} {bf : Bool} {ks : List Rq} {i : Nat} {r : Rq} (h : ks[i]? = some r) :
    NextPosition f ks i (flip ks.length (record f bf r (ks.drop (i + 1))).next) := by
  have hlen : i < ks.length := (List.getElem?_eq_some_iff.1 h).1
  have hi : (ks.map Rq.id)[i]? = some r.id := by simp [h]
  unfold record
  simp only
  cases hinfo : info f bf (ks.drop (i + 1)) r.id with
  | none =>
    right
    refine ⟨by simp [flip], ?_⟩
    rintro j q ⟨h1, h2, h3, _⟩ hq
    exfalso
    refine info_none hinfo (j - (i + 1)) q ?_ ?_
    · rw [List.getElem?_drop, show i + 1 + (j - (i + 1)) = j by omega]; exact hq
    · rw [hi] at h3
      simpa [hq] using h3
  | some p =>
    obtain ⟨j, q, h1, h2, h3, h4⟩ := info_some hinfo
    rw [List.getElem?_drop] at h1
    have hjl : i + 1 + j < ks.length := (List.getElem?_eq_some_iff.1 h1).1
    have hat : NextAt (ks.map Rq.id) i (i + 1 + j) := by
      refine ⟨by omega, by simpa using hjl, by rw [hi]; simp [h1, h2], ?_⟩
      intro m hm1 hm2 hm
      rw [hi] at hm
      simp only [List.getElem?_map, Option.map_eq_some_iff] at hm
      obtain ⟨u, hu, hu2⟩ := hm
      refine h3 (m - (i + 1)) u (by omega) ?_ hu2
      rw [List.getElem?_drop, show i + 1 + (m - (i + 1)) = m by omega]; exact hu
    have huniq : ∀ j', NextAt (ks.map Rq.id) i j' → j' = i + 1 + j := by
      rintro j' ⟨a1, a2, a3, a4⟩
      obtain ⟨b1, b2, b3, b4⟩ := hat
      rcases Nat.lt_trichotomy j' (i + 1 + j) with hlt | heq | hgt
      · exact absurd a3 (b4 j' a1 hlt)
      · exact heq
      · exact absurd b3 (a4 _ b1 hgt)
    rw [List.length_drop] at h4
    by_cases hw : (f.twr && isWrite q.op) = true
    · right
      rw [if_pos hw] at h4
      refine ⟨by simp [h4, flip], ?_⟩
      intro j' q' hj' hq'
      rw [huniq j' hj', h1] at hq'
      cases hq'
      simp only [Bool.and_eq_true] at hw
      exact ⟨hw.1, (isWrite_iff q).1 hw.2⟩
    · left
      rw [if_neg hw] at h4
      refine ⟨i + 1 + j, q, hat, h1, ?_, ?_⟩
      · rintro ⟨a, b⟩
        exact hw (by simp only [Bool.and_eq_true]; exact ⟨a, (isWrite_iff q).2 b⟩)
      · show flip ks.length p.1 = _
        unfold flip
        rw [if_pos (by omega)]
        omega

/-- the first known time to live of a list -/
theorem info_ttl {f : Format} (hf : f.hasTtl = true) : ∀ (ks : List Rq) (id : ObjId),
    (match info f true ks id with | some p => p.2 | none => 0) = (((ks.filter fun q => q.id = id).map Rq.ttl).find? (· ≠ 0)).getD 0
  | [], _ => rfl
  | r :: ks, id => by
    have ih := info_ttl hf ks id
    have ht : (init f r).ttl = r.ttl := by show (if f.hasTtl then r.ttl else 0) = _; rw [if_pos hf]
    conv => lhs; unfold info
    by_cases he : r.id = id
    · rw [if_pos he, List.filter_cons_of_pos (by simpa using he), List.map_cons, List.find?_cons, ht]
      simp only [if_true]
      by_cases h0 : r.ttl = 0
      · simp only [h0, ne_eq, not_true, if_false, decide_false]
        exact ih
      · simp [h0]
    · rw [if_neg he, List.filter_cons_of_neg (by simpa using he)]
      exact ih

theorem ttl_ok {f : Format} {bf : Bool} (hf : f.hasTtl = true) {ks : List Rq} {i : Nat} {r : Rq} (h : ks[i]? = some r) :
    (record f bf r (ks.drop (i + 1))).ttl = if bf then knownTtl ks i r.id else r.ttl := by
  have ht : (init f r).ttl = r.ttl := by show (if f.hasTtl then r.ttl else 0) = _; rw [if_pos hf]
  unfold record
  simp only [ht]
  cases bf
  · rfl
  · simp only [if_true]
    obtain ⟨hlt, hget⟩ := List.getElem?_eq_some_iff.1 h
    unfold knownTtl
    rw [List.drop_eq_getElem_cons hlt, hget, List.filter_cons_of_pos (by simp), List.map_cons, List.find?_cons]
    by_cases h0 : r.ttl = 0
    · have := info_ttl hf (ks.drop (i + 1)) r.id
      simp only [h0, ne_eq, not_true, if_false, decide_false, hf, if_true]
      rw [← this]
    · simp [h0]

/-! ## sizes -/

theorem init_size {f : Format} {r : Rq} (h : Storable f r) : (init f r).size = r.size := by
  unfold Storable at h
  unfold init
  simp only
  cases hf : f.field with
  | keyVal => rfl
  | u64 => rfl
  | u32 => rw [hf] at h; exact Nat.mod_eq_of_lt h
  | u32sat =>
    rw [hf] at h
    simp only [u32] at h ⊢
    split <;> omega

theorem asInt_round {n : Nat} (h : n < 4294967296) : (asInt n % (u32 : Nat)).toNat = n := by
  unfold asInt
  simp only [u32]
  rw [Nat.mod_eq_of_lt h]
  split <;> omega

theorem setSize_size {f : Format} {e : Ent} {z : Nat} (hk : f.field ≠ .keyVal) (h : z < 4294967296) (h2 : f.field = .u64 → z < 2147483648) : (setSize f e (asInt z)).size = z := by
  unfold setSize
  cases hf : f.field with
  | keyVal => exact absurd hf hk
  | u64 =>
    have := h2 hf
    show (asInt z % 18446744073709551616).toNat = z
    unfold asInt
    simp only [u32]
    rw [Nat.mod_eq_of_lt h]
    split <;> omega
  | u32 => exact asInt_round h
  | u32sat => exact asInt_round h

theorem setSize_rest (f : Format) (e : Ent) (z : Int) : (setSize f e z).time = e.time ∧ (setSize f e z).id = e.id ∧ (setSize f e z).op = e.op ∧ (setSize f e z).ttl = e.ttl ∧ (setSize f e z).next = e.next := by
  unfold setSize
  split <;> exact ⟨rfl, rfl, rfl, rfl, rfl⟩

theorem final_rest (f : Format) (total : Nat) (rm : Bool) (z : Option Nat) (e : Ent) :
    (final f total rm z e).time = e.time ∧ (final f total rm z e).id = e.id ∧ (final f total rm z e).op = e.op ∧ (final f total rm z e).ttl = e.ttl ∧ (final f total rm z e).next = flip total e.next := by
  have h : ∀ e1 : Ent, e1 = (if e.next ≠ -1 then { e with next := (total : Int) - 1 - e.next } else e) → e1.time = e.time ∧ e1.id = e.id ∧ e1.op = e.op ∧ e1.ttl = e.ttl ∧ e1.next = flip total e.next := by
    rintro e1 rfl
    unfold flip
    split <;> exact ⟨rfl, rfl, rfl, rfl, rfl⟩
  have h := h _ rfl
  unfold final
  simp only
  cases rm with
  | false => exact h
  | true =>
    cases z with
    | none => exact h
    | some z =>
      obtain ⟨a, b, c, d, e'⟩ := setSize_rest f (if e.next ≠ -1 then { e with next := (total : Int) - 1 - e.next } else e) (asInt z)
      exact ⟨a.trans h.1, b.trans h.2.1, c.trans h.2.2.1, d.trans h.2.2.2.1, e'.trans h.2.2.2.2⟩

theorem find_records (f : Format) (bf : Bool) (id : ObjId) : ∀ (ks : List Rq) (i : Nat), (∀ r ∈ ks, Storable f r) →
    (((records f bf ks).take i).find? fun q => q.id = id).map Ent.size = ((ks.take i).find? fun q => q.id = id).map Rq.size
  | [], i, _ => by simp [records]
  | r :: ks, 0, _ => by simp
  | r :: ks, i + 1, hs => by
    simp only [records, List.take_succ_cons, List.find?_cons]
    have hid : (record f bf r ks).id = r.id := rfl
    have hsz : (record f bf r ks).size = r.size := init_size (hs r (List.mem_cons_self ..))
    rw [hid]
    by_cases he : r.id = id
    · simp [he, hsz]
    · simp only [he, decide_false]
      exact find_records f bf id ks i (fun q hq => hs q (List.mem_cons_of_mem _ hq))

theorem find_take {ks : List Rq} {i : Nat} {r : Rq} (h : ks[i]? = some r) : (ks.find? fun q => q.id = r.id) = match (ks.take i).find? (fun q => q.id = r.id) with | some q => some q | none => some r := by
  obtain ⟨hlt, hget⟩ := List.getElem?_eq_some_iff.1 h
  conv => lhs; rw [← List.take_append_drop i ks, List.find?_append, List.drop_eq_getElem_cons hlt, hget, List.find?_cons]
  cases (ks.take i).find? (fun q => q.id = r.id) <;> simp

theorem size_ok {f : Format} {bf rm : Bool} {ks : List Rq} {i : Nat} {r : Rq} {total : Nat} (hs : ∀ r ∈ ks, Storable f r) (hrm : rm = true → f.field ≠ .keyVal) (h : ks[i]? = some r) :
    if rm then FirstSize ks r.id (final f total rm (look (fun _ => none) ((records f bf ks).take i) r.id) (record f bf r (ks.drop (i + 1)))).size
    else (final f total rm (look (fun _ => none) ((records f bf ks).take i) r.id) (record f bf r (ks.drop (i + 1)))).size = r.size := by
  have hmem : r ∈ ks := List.mem_of_getElem? h
  have hsz : (record f bf r (ks.drop (i + 1))).size = r.size := init_size (hs r hmem)
  have hone : ∀ e : Ent, (if e.next ≠ -1 then { e with next := (total : Int) - 1 - e.next } else e).size = e.size := by intro e; split <;> rfl
  cases rm with
  | false =>
    simp only [Bool.false_eq_true, if_false, final, hone]
    exact hsz
  | true =>
    have hk := hrm rfl
    have hlt : ∀ q ∈ ks, q.size < 4294967296 ∧ (f.field = .u64 → q.size < 2147483648) := by
      intro q hq
      have := hs q hq
      unfold Storable at this
      cases hf : f.field with
      | keyVal => exact absurd hf hk
      | u64 => rw [hf] at this; simp only at this; exact ⟨by omega, fun _ => this⟩
      | u32 => rw [hf] at this; exact ⟨this, fun x => by cases x⟩
      | u32sat => rw [hf] at this; exact ⟨this, fun x => by cases x⟩
    simp only [if_true, final, look]
    unfold FirstSize
    rw [find_take h]
    have hfind := find_records f bf r.id ks i hs
    cases hq : (ks.take i).find? (fun q => q.id = r.id) with
    | none =>
      rw [hq] at hfind
      simp only [Option.map_none, Option.map_eq_none_iff] at hfind
      rw [hfind]
      simp only [Option.map_none, Option.map_some, hone]
      rw [hsz]
    | some q =>
      rw [hq] at hfind
      have hqm : q ∈ ks := List.mem_of_mem_take (List.mem_of_find?_eq_some hq)
      simp only [Option.map_some, Option.map_eq_some_iff] at hfind
      obtain ⟨e, he, hes⟩ := hfind
      rw [he]
      simp only [Option.map_some]
      rw [hes, asInt_round (hlt q hqm).1, setSize_size hk (hlt q hqm).1 (hlt q hqm).2]

theorem isSizeZero_iff {f : Format} {r : Rq} (h : Storable f r) : isSizeZero f (init f r) = true ↔ AsksNothing f r := by
  unfold isSizeZero AsksNothing
  rw [init_size h]
  split
  · simp only [Bool.and_eq_true, Bool.or_eq_true, decide_eq_true_eq]; rfl
  · simp

theorem kept_eq {f : Format} {rs : List Rq} (h : ∀ r ∈ rs, Storable f r) : kept f rs = nonEmpty f rs := by
  unfold kept nonEmpty
  apply List.filter_congr
  intro r hr
  rw [Bool.eq_iff_iff]
  simp only [Bool.not_eq_true', decide_eq_true_eq, ← isSizeZero_iff (h r hr), Bool.not_eq_true]

theorem run_ok {f : Format} {bf rm : Bool} {rs : List Rq} {last : Rq} (hs : ∀ r ∈ rs ++ [last], Storable f r) (hrm : rm = true → f.field ≠ .keyVal)
    (hl : f.twr = true → ¬ Stores last) :
    ∃ out, run f bf rm (rs ++ [last]) = .ok out ∧ Written f bf rm (nonEmpty f rs ++ [last]) out := by
  have hbits : ∃ b, (if f.twr then missFill 1 (fun _ => none) (List.replicate (rs ++ [last]).length false) (rs ++ [last]) else .ok []) = Except.ok b ∧ (f.twr = true → b.length = (rs ++ [last]).length) := by
    by_cases ht : f.twr = true
    · rw [if_pos ht]
      obtain ⟨b, h1, h2⟩ := missFill_ok (rs ++ [last]) 1 (fun _ => none) (List.replicate (rs ++ [last]).length false) (by rw [List.length_replicate]; omega)
        (by intro r hr; simp only [List.getLast?_append, List.getLast?_singleton, Option.some_or, Option.some.injEq] at hr; rw [← hr]; exact hl ht)
      exact ⟨b, h1, fun _ => by rw [h2, List.length_replicate]⟩
    · rw [if_neg ht]
      exact ⟨[], rfl, fun h => absurd h ht⟩
  obtain ⟨bits, hb1, hb2⟩ := hbits
  obtain ⟨s1, h1, h2, h3⟩ := body_ok (f := f) (bf := bf) (bits := bits) (total := (rs ++ [last]).length) (ks := []) (st := {}) last ⟨rfl, fun _ => rfl, rfl⟩ hb2 (by simp)
  obtain ⟨s2, h4, h5⟩ := reads_ok (f := f) (bf := bf) hb2 rs.reverse [last] s1 h2 (by rw [h3]; simp; omega)
  have hks : (kept f rs.reverse).reverse ++ [last] = nonEmpty f rs ++ [last] := by
    rw [← kept_eq (fun r hr => hs r (List.mem_append_left _ hr))]
    unfold kept
    rw [List.filter_reverse, List.reverse_reverse]
  rw [hks] at h5
  refine ⟨rewrite f s2.n rm (fun _ => none) s2.temp.reverse, ?_, ?_⟩
  · unfold run
    rw [hb1]
    simp only [List.reverse_append, List.reverse_cons, List.reverse_nil, List.nil_append, List.cons_append]
    show (body f bf bits (rs ++ [last]).length last {} >>= _) = _
    rw [h1]
    show (reads f bf bits (rs ++ [last]).length rs.reverse s1 >>= _) = _
    rw [h4]
    rfl
  · rw [h5.n, h5.temp]
    generalize hK : nonEmpty f rs ++ [last] = ks
    have hsk : ∀ r ∈ ks, Storable f r := by
      intro r hr
      rw [← hK] at hr
      apply hs
      rcases List.mem_append.1 hr with h | h
      · exact List.mem_append_left _ (List.mem_filter.1 h).1
      · exact List.mem_append_right _ h
    refine ⟨by rw [rewrite_length, records_length], ?_⟩
    intro i r e hr he
    rw [rewrite_get f ks.length rm _ _ i _ (records_get f bf ks i r hr), Option.some.injEq] at he
    have hid : (record f bf r (ks.drop (i + 1))).id = r.id := rfl
    rw [hid] at he
    subst he
    obtain ⟨a1, a2, a3, a4, a5⟩ := final_rest f ks.length rm (look (fun _ => none) ((records f bf ks).take i) r.id) (record f bf r (ks.drop (i + 1)))
    refine ⟨a1, a2, a3, ?_, ?_, size_ok hsk hrm hr⟩
    · rw [a5]; exact next_ok hr
    · intro hf
      rw [a4]
      exact ttl_ok hf hr

end Verif.OracleGen
