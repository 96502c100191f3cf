import Verif.Proof.TextUse
/-!
# The plain text reader
-/

namespace Verif.Text
open Verif Verif.CLib Verif.Spec.Csv Verif.Spec.Text
open Verif.Reader (Request Vals Fld sWrap newRequest)

theorem skipEmpty_ok {ts : List (List Nat)} {rest : List Nat} (h : TxtFile ts rest) : ∀ (bytes : List Nat) (pos fuel : Nat), bytes.drop pos = rest → rest.length < fuel →
    (ts = [] ∧ skipEmpty bytes fuel pos = none) ∨
    ∃ t ts' l pos' rest', ts = t :: ts' ∧ (l = t ∨ l = t ++ [10]) ∧ t ≠ [] ∧ 10 ∉ t ∧ skipEmpty bytes fuel pos = some (l, pos') ∧ bytes.drop pos' = rest' ∧ TxtFile ts' rest' := by
  induction h with
  | nil =>
    intro bytes pos fuel hd hf
    cases fuel with
    | zero => omega
    | succ fuel =>
      refine .inl ⟨rfl, ?_⟩
      unfold skipEmpty
      rw [getline_end hd]
  | last hne ht =>
    rename_i t
    intro bytes pos fuel hd hf
    cases fuel with
    | zero => omega
    | succ fuel =>
      refine .inr ⟨t, [], t, pos + t.length, [], rfl, .inl rfl, hne, ht, ?_, drop_after (by rw [hd]; simp), .nil⟩
      unfold skipEmpty
      rw [getline_last hd hne ht]
      simp only
      rw [if_neg]
      rintro rfl
      exact ht (by simp)
  | cons hne ht hT ih =>
    rename_i t ts rest
    intro bytes pos fuel hd hf
    cases fuel with
    | zero => omega
    | succ fuel =>
      refine .inr ⟨t, ts, t ++ [10], pos + (t ++ [10]).length, rest, rfl, .inr rfl, hne, ht, ?_, drop_after (by rw [hd]; simp), hT⟩
      unfold skipEmpty
      rw [getline_line hd ht]
      simp only
      rw [if_neg]
      intro h
      have : (t ++ [10]).length = 1 := by rw [h]; rfl
      simp only [List.length_append, List.length_cons, List.length_nil] at this
      exact hne (List.length_eq_zero_iff.1 (by omega))
  | empty hT ih =>
    rename_i ts rest
    intro bytes pos fuel hd hf
    cases fuel with
    | zero => omega
    | succ fuel =>
      have hg : getline bytes pos = some [10] := getline_line (t := []) hd (by simp)
      have e : skipEmpty bytes (fuel + 1) pos = skipEmpty bytes fuel (pos + 1) := by
        conv => lhs; unfold skipEmpty
        rw [hg]
        simp only [if_true]
      rw [e]
      refine ih bytes (pos + 1) fuel ?_ (by simp only [List.length_cons] at hf; omega)
      exact drop_after (l := [10]) hd

/-- a plain text reader whose next byte to read is the first of `rest` -/
structure TAt (p : Params) (rd : TReader) (rest : List Nat) : Prop where
  csv : rd.csv = none
  conf : rd.idIsNum = p.idIsNum ∧ rd.cap = p.cap
  rest : rd.bytes.drop rd.pos = rest
  mmap : rd.mmapOff < rd.bytes.length
  left : rd.nLeft = 0

/-- what a request read from a text file shows besides its id -/
def Bare (q : Request) : Prop := q.vals .time = 0 ∧ q.vals .size = 1

theorem strtoull_line {n : Nat} (h : n < 2 ^ 64) {s : List Nat} (hs : s = [] ∨ s = [10] ∨ s = [13] ∨ s = [13, 10]) : strtoull (cstr (dec n ++ s)) = some n := by
  have hz : ∀ c ∈ s, c ≠ 0 := by rcases hs with rfl | rfl | rfl | rfl <;> simp
  rw [cstr_dec n s hz]
  by_cases h0 : n = 0
  · subst h0
    have e : dec 0 = [48] := by unfold dec; rfl
    rw [e]
    rcases hs with rfl | rfl | rfl | rfl <;> rfl
  · have hd : (dec n ++ s).dropWhile isSpace = dec n ++ s := dropWhile_dec n s
    have hp : digitPrefix 10 (dec n ++ s) = dec n := by
      refine digitPrefix_all (dec_digit n) ?_
      intro c hc
      rcases hs with rfl | rfl | rfl | rfl
      · simp at hc
      · simp at hc; subst hc; decide
      · simp at hc; subst hc; decide
      · simp at hc; subst hc; decide
    have hh : (dec n ++ s).head? ≠ some 48 := by
      rw [List.head?_append_of_ne_nil _ (dec_ne_nil n)]
      exact dec_head (Nat.pos_of_ne_zero h0)
    have hdig : ∀ c, (dec n ++ s).head? = some c → 48 ≤ c := by
      intro c hc
      rw [List.head?_append_of_ne_nil _ (dec_ne_nil n)] at hc
      exact (dec_digit n c (List.mem_of_head? hc)).1
    have hsb : splitBase (dec n ++ s) = some (10, dec n) := by
      unfold splitBase
      split
      · rename_i heq; rw [heq] at hh; simp at hh
      · rename_i heq; rw [heq] at hh; simp at hh
      · rw [hp, if_neg (dec_ne_nil n)]
    unfold strtoull
    rw [hd]
    split
    · rename_i heq
      have := hdig 45 (by rw [heq]; rfl)
      omega
    · rename_i heq
      have := hdig 43 (by rw [heq]; rfl)
      omega
    · rw [hsb, Option.map_some, digitsVal_eq (dec_digit n), number_dec]
      unfold clamp
      congr 1
      omega

theorem readOne_txt {hash : List Nat → Nat} {rd : TReader} {q : Request} (h : rd.csv = none) : readOne hash rd q = readWith txtRead rd q := by
  unfold readOne
  rw [if_neg (by rw [h]; decide)]

/-- reading a plain text file whose lines mean ids; `Q` relates the lines and the known strings before and after to the ids -/
theorem txt_all {hash : List Nat → Nat} {p : Params} (Q : List (List Nat) → List Nat → Nat → List (List Nat) → Prop)
    (hQ : ∀ (rd : TReader) (t l : List Nat), rd.idIsNum = p.idIsNum → (l = t ∨ l = t ++ [10]) → t ≠ [] → 10 ∉ t → (∃ v k', Q rd.quarks t v k') → ∃ v k', Q rd.quarks t v k' ∧
      ∀ q pos', skipEmpty rd.bytes (rd.bytes.length + 1) rd.pos = some (l, pos') → txtRead rd q = .ok (0, { rd with pos := pos', quarks := k' }, { q with vals := q.vals.set .id v }))
    (K : List (List Nat) → Prop) (hK : ∀ k t v k', K k → Q k t v k' → K k') :
    ∀ (ts : List (List Nat)) (rest : List Nat), TxtFile ts rest → (∀ t ∈ ts, ∀ k, K k → ∃ v k', Q k t v k') → ∀ (fuel : Nat) (rd : TReader) (q : Request), ts.length < fuel → TAt p rd rest → Bare q → K rd.quarks →
      ∃ (rs : List Request) (rd' : TReader) (ids : List Nat) (ks : List (List (List Nat))), readAll hash fuel rd q = .ok (rs, rd') ∧ rs.map shown = ids.map (fun i : Nat => ((0 : Int), (i : Int), (1 : Int))) ∧
        ids.length = (if p.cap > 1 then ts.take (p.cap.toNat - rd.nRead) else ts).length ∧ (∀ r ∈ rs, r.valid = true) ∧ K rd'.quarks ∧
        ks.length = ids.length + 1 ∧ ks[0]? = some rd.quarks ∧ ks[ids.length]? = some rd'.quarks ∧
        ∀ i t v k k', ts[i]? = some t → ids[i]? = some v → ks[i]? = some k → ks[i + 1]? = some k' → Q k t v k' := by
  intro ts
  induction ts with
  | nil =>
    intro rest hT _ fuel rd q hf ha hq hk
    cases fuel with
    | zero => omega
    | succ fuel =>
      have hm : ¬ rd.mmapOff ≥ rd.bytes.length := by have := ha.mmap; omega
      have hend : ∃ rd' q', readOne hash rd q = .ok (1, rd', q') ∧ rd'.quarks = rd.quarks := by
        rw [readOne_txt ha.csv]
        unfold readWith
        rw [if_neg hm]
        split
        · exact ⟨_, _, rfl, rfl⟩
        · rw [if_neg (by rw [ha.left]; decide)]
          rcases skipEmpty_ok hT rd.bytes rd.pos (rd.bytes.length + 1) ha.rest (by rw [← ha.rest]; simp only [List.length_drop]; omega) with ⟨_, h⟩ | ⟨t, ts', _, _, _, h, _⟩
          · have ht : ∀ q, txtRead { rd with nRead := rd.nRead + 1 } q = .ok (1, { rd with nRead := rd.nRead + 1, pos := max rd.pos rd.bytes.length }, { q with valid := false }) := by
              intro q
              unfold txtRead
              simp only
              rw [h]
            rw [ht, Res.bind_ok]
            exact ⟨_, _, rfl, rfl⟩
          · cases h
      obtain ⟨rd', q', h1, h2⟩ := hend
      refine ⟨[], rd', [], [rd.quarks], ?_, rfl, by split <;> simp, by simp, by rw [h2]; exact hk, rfl, rfl, by rw [h2]; rfl, by simp⟩
      unfold readAll
      rw [h1, Res.bind_ok]
      rfl
  | cons t ts ih =>
    intro rest hT hex fuel rd q hf ha hq hk
    cases fuel with
    | zero => omega
    | succ fuel =>
      have hm : ¬ rd.mmapOff ≥ rd.bytes.length := by have := ha.mmap; omega
      by_cases hdone : rd.cap > 1 ∧ (rd.nRead : Int) ≥ rd.cap
      · have h1 : readOne hash rd q = .ok (1, rd, { q with valid := false }) := by
          unfold readOne readWith
          rw [if_neg hm, if_pos hdone]
        rw [ha.conf.2] at hdone
        have e : p.cap.toNat - rd.nRead = 0 := by omega
        refine ⟨[], rd, [], [rd.quarks], ?_, rfl, ?_, by simp, hk, rfl, rfl, rfl, by simp⟩
        · unfold readAll
          rw [h1, Res.bind_ok]
          rfl
        · rw [if_pos hdone.1, e]
          rfl
      · rcases skipEmpty_ok hT rd.bytes rd.pos (rd.bytes.length + 1) ha.rest (by rw [← ha.rest]; simp only [List.length_drop]; omega) with ⟨h, _⟩ | ⟨t', ts', l, pos', rest', h, hl, hne, h10, hsk, hr', hT'⟩
        · cases h
        · injection h with e1 e2
          subst e1 e2
          obtain ⟨v, k', hv, hread⟩ := hQ { rd with nRead := rd.nRead + 1 } t l ha.conf.1 hl hne h10 (hex t (by simp) _ hk)
          have h1 := hread { vals := q.vals.set .ttl (-1), hv := 0, valid := true } pos' hsk
          have h2 : ∃ q1, readOne hash rd q = .ok (0, { rd with nRead := rd.nRead + 1, pos := pos', quarks := k' }, q1) ∧ shown q1 = (0, (v : Int), 1) ∧ q1.valid = true := by
            refine ⟨if rd.ignoreSize then { vals := ((q.vals.set .ttl (-1)).set .id v).set .size 1, hv := 0, valid := true } else { vals := (q.vals.set .ttl (-1)).set .id v, hv := 0, valid := true }, ?_, ?_, ?_⟩
            · rw [readOne_txt ha.csv]
              unfold readWith
              rw [if_neg hm, if_neg hdone, if_neg (by rw [ha.left]; decide), h1, Res.bind_ok]
            · have a1 : ((q.vals.set .ttl (-1)).set .id v) .time = 0 := by
                rw [set_other (f := .id) (g := .time) _ _ (by decide), set_other (f := .ttl) (g := .time) _ _ (by decide), hq.1]
              have a2 : ((q.vals.set .ttl (-1)).set .id v) .size = 1 := by
                rw [set_other (f := .id) (g := .size) _ _ (by decide), set_other (f := .ttl) (g := .size) _ _ (by decide), hq.2]
              cases rd.ignoreSize with
              | true =>
                simp only [if_true, shown]
                rw [set_other (f := .size) (g := .time) _ _ (by decide), a1, set_other (f := .size) (g := .id) _ _ (by decide), set_same, set_same]
              | false =>
                simp only [Bool.false_eq_true, if_false, shown]
                rw [a1, a2, set_same]
            · split <;> rfl
          obtain ⟨q1, h2, h3, h4⟩ := h2
          simp only [shown, Prod.mk.injEq] at h3
          obtain ⟨rs, rd', ids, ks, r1, r2, r3, r4, r5, r6, r7, r8, r9⟩ := ih rest' hT' (fun x hx => hex x (List.mem_cons_of_mem _ hx)) fuel { rd with nRead := rd.nRead + 1, pos := pos', quarks := k' } q1
            (by simp only [List.length_cons] at hf; omega) ⟨ha.csv, ha.conf, hr', ha.mmap, ha.left⟩ ⟨h3.1, h3.2.2⟩ (hK _ _ _ _ hk hv)
          have r7 : ks[0]? = some k' := r7
          refine ⟨q1 :: rs, rd', v :: ids, rd.quarks :: ks, ?_, ?_, ?_, ?_, r5, ?_, rfl, ?_, ?_⟩
          · unfold readAll
            rw [h2, Res.bind_ok]
            simp only [ne_eq, not_true_eq_false, if_false]
            rw [r1, Res.bind_ok]
          · rw [List.map_cons, List.map_cons, r2]
            congr 1
            simp only [shown, Prod.mk.injEq]
            exact h3
          · have r3 : ids.length = (if p.cap > 1 then ts.take (p.cap.toNat - (rd.nRead + 1)) else ts).length := r3
            rw [List.length_cons, r3]
            split
            · rename_i hc
              have : ¬ ((rd.nRead : Int) ≥ p.cap) := fun h => hdone (by rw [ha.conf.2]; exact ⟨hc, h⟩)
              simp only [List.length_take, List.length_cons]
              omega
            · rfl
          · intro r hr
            rcases List.mem_cons.1 hr with rfl | hr
            · exact h4
            · exact r4 r hr
          · rw [List.length_cons, List.length_cons, r6]
          · rw [List.length_cons, List.getElem?_cons_succ]
            exact r8
          · intro i t1 v1 k1 k2 b1 b2 b3 b4
            cases i with
            | zero =>
              simp only [List.getElem?_cons_zero, Option.some.injEq] at b1 b2 b3
              simp only [List.getElem?_cons_succ] at b4
              rw [r7, Option.some.injEq] at b4
              subst b1 b2 b3 b4
              exact hv
            | succ i =>
              simp only [List.getElem?_cons_succ] at b1 b2 b3 b4
              exact r9 i t1 v1 k1 k2 b1 b2 b3 b4

/-! ## Numbers -/

theorem numLine_read {t l : List Nat} {n : Nat} (h : NumLine t n) (hl : l = t ∨ l = t ++ [10]) : strtoull (cstr l) = some n := by
  obtain ⟨h | h, hn⟩ := h <;> rcases hl with rfl | rfl <;> subst h
  · have := strtoull_line hn (s := []) (.inl rfl)
    rwa [List.append_nil] at this
  · exact strtoull_line hn (.inr (.inl rfl))
  · exact strtoull_line hn (.inr (.inr (.inl rfl)))
  · rw [List.append_assoc]
    exact strtoull_line hn (.inr (.inr (.inr rfl)))

theorem forall₂_get {α β : Type} {R : α → β → Prop} {l : List α} {m : List β} (h : List.Forall₂ R l m) : ∀ (i : Nat) (a : α), l[i]? = some a → ∃ b, m[i]? = some b ∧ R a b := by
  induction h with
  | nil => intro i a h; simp at h
  | cons hr _ ih =>
    intro i a h
    cases i with
    | zero => simp only [List.getElem?_cons_zero, Option.some.injEq] at h; subst h; exact ⟨_, rfl, hr⟩
    | succ i => exact ih i a (by simpa using h)

theorem forall₂_len {α β : Type} {R : α → β → Prop} {l : List α} {m : List β} (h : List.Forall₂ R l m) : l.length = m.length := by
  induction h with
  | nil => rfl
  | cons _ _ ih => simp only [List.length_cons, ih]

theorem take_len_eq {α β : Type} (p : Params) (l : List α) (m : List β) (h : l.length = m.length) (k : Nat) :
    (if p.cap > 1 then l.take k else l).length = (if p.cap > 1 then m.take k else m).length := by
  split <;> simp [h]

theorem txt_num {hash : List Nat → Nat} {p : Params} (hp : p.idIsNum = true) {ts : List (List Nat)} {ns : List Nat} {rest : List Nat} (hT : TxtFile ts rest) (hF : List.Forall₂ NumLine ts ns)
    {fuel : Nat} {rd : TReader} {q : Request} (hf : ts.length < fuel) (ha : TAt p rd rest) (hq : Bare q) (h0 : rd.nRead = 0) :
    ∃ (rs : List Request) (rd' : TReader), readAll hash fuel rd q = .ok (rs, rd') ∧ rs.map shown = (upTo p ns).map (fun i : Nat => ((0 : Int), (i : Int), (1 : Int))) ∧
      (∀ r ∈ rs, r.valid = true) ∧ rd'.quarks = rd.quarks := by
  obtain ⟨rs, rd', ids, ks, r1, r2, r3, r4, r5, r6, r7, r8, r9⟩ := txt_all (hash := hash) (p := p) (fun k t v k' => NumLine t v ∧ k' = k) (by
      rintro rd t l hn hl hne h10 ⟨v, k', hv, rfl⟩
      refine ⟨v, _, ⟨hv, rfl⟩, ?_⟩
      intro q pos' hs
      unfold txtRead
      rw [hs]
      simp only
      rw [if_pos (by rw [hn]; exact hp), numLine_read hv hl])
    (fun k => k = rd.quarks) (by rintro k t v k' rfl ⟨_, rfl⟩; rfl) ts rest hT (by
      intro t ht k hk
      obtain ⟨i, hi, rfl⟩ := List.mem_iff_getElem.1 ht
      obtain ⟨b, _, hb⟩ := forall₂_get hF i _ (List.getElem?_eq_getElem hi)
      exact ⟨b, k, hb, rfl⟩) fuel rd q hf ha hq rfl
  refine ⟨rs, rd', r1, ?_, r4, r5⟩
  rw [r2]
  have hids : ids = upTo p ns := by
    have hlen : ids.length = (upTo p ns).length := by
      rw [r3, h0]
      exact take_len_eq p ts ns (forall₂_len hF) _
    refine List.ext_getElem? ?_
    intro i
    by_cases hi : i < ids.length
    · have hits : i < ts.length := by
        have : (if p.cap > 1 then ts.take (p.cap.toNat - rd.nRead) else ts).length ≤ ts.length := by
          split
          · rw [List.length_take]; omega
          · exact Nat.le_refl _
        omega
      obtain ⟨b, hb, hR⟩ := forall₂_get hF i _ (List.getElem?_eq_getElem hits)
      have hk1 : i < ks.length := by omega
      have hk2 : i + 1 < ks.length := by omega
      have hQ := r9 i _ _ _ _ (List.getElem?_eq_getElem hits) (List.getElem?_eq_getElem hi) (List.getElem?_eq_getElem hk1) (List.getElem?_eq_getElem hk2)
      have e : ids[i] = b := by
        have e1 := numLine_read hQ.1 (.inl rfl)
        have e2 := numLine_read hR (.inl rfl)
        rw [e1, Option.some.injEq] at e2
        exact e2
      rw [List.getElem?_eq_getElem hi, e]
      have hcut : i < (upTo p ns).length := by omega
      unfold upTo at hcut ⊢
      split
      · rename_i hc
        rw [if_pos hc, List.length_take] at hcut
        rw [List.getElem?_take_of_lt (by omega), hb]
      · exact hb.symm
    · rw [List.getElem?_eq_none (by omega), List.getElem?_eq_none (by omega)]
  rw [hids]

/-! ## Strings -/

theorem idxOf_prefix {k k' : List (List Nat)} (h : k <+: k') {s : List Nat} (hs : s ∈ k) : k'.idxOf s = k.idxOf s := by
  obtain ⟨m, rfl⟩ := h
  exact List.idxOf_append_of_mem hs

theorem quark_spec (k : List (List Nat)) (s : List Nat) (hk : k.Nodup) :
    (quark k s).2.Nodup ∧ k <+: (quark k s).2 ∧ s ∈ (quark k s).2 ∧ (quark k s).1 = (quark k s).2.idxOf s + 1 := by
  unfold quark
  by_cases h : s ∈ k
  · rw [if_pos h]
    exact ⟨hk, List.prefix_rfl, h, rfl⟩
  · rw [if_neg h]
    refine ⟨?_, List.prefix_append _ _, by simp, ?_⟩
    · rw [List.nodup_append]
      refine ⟨hk, by simp, ?_⟩
      intro a ha b hb
      simp only [List.mem_singleton] at hb
      subst hb
      rintro rfl
      exact h ha
    · simp only
      rw [List.idxOf_append_of_notMem h]
      simp

theorem txt_str {hash : List Nat → Nat} {p : Params} (hp : p.idIsNum = false) {ts : List (List Nat)} {rest : List Nat} (hT : TxtFile ts rest) (hz : ∀ t ∈ ts, 0 ∉ t)
    {fuel : Nat} {rd : TReader} {q : Request} (hf : ts.length < fuel) (ha : TAt p rd rest) (hq : Bare q) (h0 : rd.nRead = 0) (hk : rd.quarks.Nodup) :
    ∃ (rs : List Request) (rd' : TReader), readAll hash fuel rd q = .ok (rs, rd') ∧ rs.map shown = (upTo p ts).map (fun t => ((0 : Int), ((rd'.quarks.idxOf t + 1 : Nat) : Int), (1 : Int))) ∧
      (∀ r ∈ rs, r.valid = true) ∧ rd'.quarks.Nodup ∧ rd.quarks <+: rd'.quarks ∧ ∀ t ∈ upTo p ts, t ∈ rd'.quarks := by
  obtain ⟨rs, rd', ids, ks, r1, r2, r3, r4, r5, r6, r7, r8, r9⟩ := txt_all (hash := hash) (p := p) (fun k t v k' => 0 ∉ t ∧ v = (quark k t).1 ∧ k' = (quark k t).2) (by
      rintro rd t l hn hl hne h10 ⟨v, k', hv, rfl, rfl⟩
      refine ⟨_, _, ⟨hv, rfl, rfl⟩, ?_⟩
      intro q pos' hs
      have hs2 : (if l.getLast? = some 10 then l.dropLast else l) = t := by
        rcases hl with rfl | rfl
        · rw [if_neg]
          intro hg
          exact h10 (List.mem_of_getLast? hg)
        · rw [List.getLast?_concat, if_pos rfl, List.dropLast_concat]
      unfold txtRead
      rw [hs]
      simp only
      rw [if_neg (by rw [hn, hp]; decide), hs2, cstr_noNul hv])
    (fun k => k.Nodup) (by rintro k t v k' hk ⟨_, _, rfl⟩; exact (quark_spec k t hk).1) ts rest hT (by
      intro t ht k hk
      exact ⟨_, _, hz t ht, rfl, rfl⟩) fuel rd q hf ha hq hk
  -- the tables of known strings grow
  have hstep : ∀ i (hi : i < ids.length), ∃ (h1 : i < ks.length) (h2 : i + 1 < ks.length) (h3 : i < ts.length), ids[i] = (quark ks[i] ts[i]).1 ∧ ks[i + 1] = (quark ks[i] ts[i]).2 := by
    intro i hi
    have hits : i < ts.length := by
      have : (if p.cap > 1 then ts.take (p.cap.toNat - rd.nRead) else ts).length ≤ ts.length := by
        split
        · rw [List.length_take]; omega
        · exact Nat.le_refl _
      omega
    have hk1 : i < ks.length := by omega
    have hk2 : i + 1 < ks.length := by omega
    have hQ := r9 i _ _ _ _ (List.getElem?_eq_getElem hits) (List.getElem?_eq_getElem hi) (List.getElem?_eq_getElem hk1) (List.getElem?_eq_getElem hk2)
    exact ⟨hk1, hk2, hits, hQ.2.1, hQ.2.2⟩
  have hnd : ∀ i (hi : i < ks.length), ks[i].Nodup := by
    intro i
    induction i with
    | zero =>
      intro hi
      have : ks[0] = rd.quarks := by rw [List.getElem?_eq_getElem hi, Option.some.injEq] at r7; exact r7
      rw [this]; exact hk
    | succ i ih =>
      intro hi
      obtain ⟨h1, h2, h3, h4, h5⟩ := hstep i (by omega)
      rw [h5]
      exact (quark_spec _ _ (ih h1)).1
  have hmono : ∀ n i (hi : i < ks.length), i + n = ids.length → ks[i] <+: rd'.quarks := by
    intro n
    induction n with
    | zero =>
      intro i hi he
      have he : i = ids.length := by omega
      subst he
      rw [List.getElem?_eq_getElem hi, Option.some.injEq] at r8
      rw [r8]
      exact List.prefix_rfl
    | succ n ih =>
      intro i hi he
      obtain ⟨h1, h2, h3, h4, h5⟩ := hstep i (by omega)
      refine List.IsPrefix.trans ?_ (ih (i + 1) h2 (by omega))
      rw [h5]
      exact (quark_spec _ _ (hnd i hi)).2.1
  have hlen : ids.length = (upTo p ts).length := by rw [r3, h0]; rfl
  have hup : ∀ i (hi : i < (upTo p ts).length) (h3 : i < ts.length), (upTo p ts)[i] = ts[i] := by
    intro i hi h3
    have : (upTo p ts)[i]? = some ts[i] := by
      unfold upTo at hi ⊢
      split
      · rename_i hc
        rw [if_pos hc, List.length_take] at hi
        rw [List.getElem?_take_of_lt (by omega)]
        exact List.getElem?_eq_getElem h3
      · exact List.getElem?_eq_getElem h3
    rw [List.getElem?_eq_getElem hi, Option.some.injEq] at this
    exact this
  have hval : ∀ i (hi : i < ids.length) (h3 : i < ts.length), ids[i] = rd'.quarks.idxOf ts[i] + 1 ∧ ts[i] ∈ rd'.quarks := by
    intro i hi h3'
    obtain ⟨h1, h2, h3, h4, h5⟩ := hstep i hi
    have hsp := quark_spec ks[i] ts[i] (hnd i h1)
    have hm := hmono (ids.length - (i + 1)) (i + 1) h2 (by omega)
    rw [h5] at hm
    exact ⟨by rw [h4, hsp.2.2.2, idxOf_prefix hm hsp.2.2.1], hm.subset hsp.2.2.1⟩
  refine ⟨rs, rd', r1, ?_, r4, r5, ?_, ?_⟩
  · rw [r2]
    refine List.ext_getElem (by rw [List.length_map, List.length_map, hlen]) ?_
    intro i h1 h2
    rw [List.length_map] at h1 h2
    obtain ⟨_, _, h3, _, _⟩ := hstep i h1
    rw [List.getElem_map, List.getElem_map, (hval i h1 h3).1, hup i h2 h3]
  · have h1 : 0 < ks.length := by omega
    have := hmono ids.length 0 h1 (by omega)
    rw [List.getElem?_eq_getElem h1, Option.some.injEq] at r7
    rw [r7] at this
    exact this
  · intro t ht
    obtain ⟨i, hi, rfl⟩ := List.mem_iff_getElem.1 ht
    obtain ⟨_, _, h3, _, _⟩ := hstep i (by omega)
    rw [hup i hi h3]
    exact (hval i (by omega) h3).2

/-! ## Using a text reader -/

/-- what holds of a reader and survives moving, reading and resetting holds of every reader reached -/
theorem used_inv {hash : List Nat → Nat} {rd0 rd : TReader} (I : TReader → Prop) (h0 : I rd0) (hp : ∀ rd k, I rd → I { rd with pos := k }) (hl : ∀ rd, I rd → ¬ rd.nLeft > 0)
    (hr : ∀ rd q s rd' q', I rd → readOne hash rd q = .ok (s, rd', q') → I rd') (hz : ∀ rd, I rd → I (reset rd)) (h : Used hash rd0 rd) : I rd := by
  have hb : ∀ (rd rd' : TReader) (s : Int), I rd → goBackOne rd = .ok (s, rd') → I rd' := by
    intro rd rd' s hi h
    unfold goBackOne at h
    split at h
    · simp only [Except.ok.injEq, Prod.mk.injEq] at h
      rw [← h.2]; exact hi
    · rw [Res.bind_eq_ok] at h
      obtain ⟨r, _, h⟩ := h
      simp only [Except.ok.injEq, Prod.mk.injEq] at h
      rw [← h.2]
      exact hp _ _ hi
  induction h with
  | refl => exact h0
  | read _ h ih => exact hr _ _ _ _ _ ih h
  | above _ h ih =>
    unfold readAbove at h
    rw [if_neg (hl _ ih), Res.bind_eq_ok] at h
    obtain ⟨⟨s1, rd1⟩, h1, h⟩ := h
    have hs1 : I rd1 := by
      unfold goBackTwo at h1
      rw [Res.bind_eq_ok] at h1
      obtain ⟨⟨s2, rd2⟩, h2, h1⟩ := h1
      have hs2 := hb _ _ _ ih h2
      simp only at h1
      split at h1
      · exact hb _ _ _ hs2 h1
      · simp only [Except.ok.injEq, Prod.mk.injEq] at h1
        rw [← h1.2]; exact hs2
    simp only at h
    split at h
    · exact hr _ _ _ _ _ hs1 h
    · simp only [Except.ok.injEq, Prod.mk.injEq] at h
      rw [← h.2.1]; exact hs1
  | skip n _ ih =>
    have : ∀ (n : Nat) (rd : TReader), I rd → I (skipN rd n).2 := by
      intro n
      induction n with
      | zero => intro rd hi; exact hi
      | succ n ih =>
        intro rd hi
        unfold skipN
        split
        · exact hi
        · exact ih _ (hp _ _ hi)
    exact this n _ ih
  | back _ h ih => exact hb _ _ _ ih h
  | seek off _ h ih =>
    unfold setPos at h
    split at h
    · split at h
      · cases h
      · rw [Res.bind_eq_ok] at h
        obtain ⟨p, _, h⟩ := h
        simp only [Except.ok.injEq] at h
        rw [← h]
        exact hp _ _ ih
    · split at h
      · simp only [Except.ok.injEq] at h
        rw [← h]
        exact hp _ _ ih
      · rw [Res.bind_eq_ok] at h
        obtain ⟨⟨s, r⟩, h1, h⟩ := h
        simp only [Except.ok.injEq] at h
        rw [← h]
        exact hb _ _ _ (hp _ _ ih) h1
  | reset _ ih => exact hz _ ih

/-- a text reader after some calls -/
def TSteady (rd0 rd : TReader) : Prop := ∃ pos n qs, rd = { rd0 with pos := pos, nRead := n, quarks := qs } ∧ rd0.quarks <+: qs ∧ qs.Nodup

theorem txtRead_steady {rd0 rd rd' : TReader} {q q' : Request} {s : Int} (hs : TSteady rd0 rd) (h : txtRead rd q = .ok (s, rd', q')) : TSteady rd0 rd' := by
  obtain ⟨pos, n, qs, rfl, h1, h2⟩ := hs
  unfold txtRead at h
  split at h
  · simp only [Except.ok.injEq, Prod.mk.injEq] at h
    rw [← h.2.1]
    exact ⟨_, _, _, rfl, h1, h2⟩
  · split at h
    · split at h
      · cases h
      · simp only [Except.ok.injEq, Prod.mk.injEq] at h
        rw [← h.2.1]
        exact ⟨_, _, _, rfl, h1, h2⟩
    · simp only [Except.ok.injEq, Prod.mk.injEq] at h
      rw [← h.2.1]
      have hq := quark_spec qs
      exact ⟨_, _, _, rfl, h1.trans (hq _ h2).2.1, (hq _ h2).1⟩

theorem used_txt {hash : List Nat → Nat} {rd0 rd : TReader} (hc : rd0.csv = none) (hl : rd0.nLeft = 0) (hk : rd0.quarks.Nodup) (h : Used hash rd0 rd) : TSteady rd0 rd := by
  refine used_inv (TSteady rd0) ⟨rd0.pos, rd0.nRead, rd0.quarks, rfl, List.prefix_rfl, hk⟩ ?_ ?_ ?_ ?_ h
  · rintro rd k ⟨pos, n, qs, rfl, h1, h2⟩
    exact ⟨_, _, _, rfl, h1, h2⟩
  · rintro rd ⟨pos, n, qs, rfl, h1, h2⟩
    show ¬ rd0.nLeft > 0
    rw [hl]
    decide
  · rintro rd q s rd' q' hs h
    have hn : ¬ rd.nLeft > 0 := by
      obtain ⟨pos, n, qs, rfl, h1, h2⟩ := hs
      show ¬ rd0.nLeft > 0
      rw [hl]
      decide
    have hcs : rd.csv = none := by
      obtain ⟨pos, n, qs, rfl, h1, h2⟩ := hs
      exact hc
    unfold readOne at h
    rw [show (if rd.csv.isSome = true then csvRead hash (rd.bytes.length + 2) else txtRead) = txtRead by rw [hcs]; rfl] at h
    unfold readWith at h
    split at h
    · simp only [Except.ok.injEq, Prod.mk.injEq] at h
      rw [← h.2.1]; exact hs
    · split at h
      · simp only [Except.ok.injEq, Prod.mk.injEq] at h
        rw [← h.2.1]; exact hs
      · rw [Res.bind_eq_ok] at h
        obtain ⟨⟨s1, rd1, q1⟩, h1, h⟩ := h
        simp only [Except.ok.injEq, Prod.mk.injEq] at h
        rw [← h.2.1]
        refine txtRead_steady ?_ h1
        obtain ⟨pos, n, qs, rfl, h1, h2⟩ := hs
        exact ⟨_, _, _, rfl, h1, h2⟩
  · rintro rd ⟨pos, n, qs, rfl, h1, h2⟩
    unfold reset
    split
    · exact ⟨_, _, _, rfl, h1, h2⟩
    · rename_i c hcs
      have : rd0.csv = some c := hcs
      rw [hc] at this
      cases this

theorem used_trans {hash : List Nat → Nat} {a b c : TReader} (h1 : Used hash a b) (h2 : Used hash b c) : Used hash a c := by
  induction h2 with
  | refl => exact h1
  | read _ h ih => exact .read ih h
  | above _ h ih => exact .above ih h
  | skip n _ ih => exact .skip n ih
  | back _ h ih => exact .back ih h
  | seek o _ h ih => exact .seek o ih h
  | reset _ ih => exact .reset ih

/-- reading to the end is a use of the reader -/
theorem readAll_used {hash : List Nat → Nat} (fuel : Nat) : ∀ {rd rd' : TReader} {q : Request} {rs : List Request}, readAll hash fuel rd q = .ok (rs, rd') → Used hash rd rd' := by
  induction fuel with
  | zero => intro rd rd' q rs h; cases h
  | succ fuel ih =>
    intro rd rd' q rs h
    unfold readAll at h
    rw [Res.bind_eq_ok] at h
    obtain ⟨⟨s, rd1, q1⟩, h1, h⟩ := h
    simp only at h
    split at h
    · simp only [Except.ok.injEq, Prod.mk.injEq] at h
      rw [← h.2]
      exact .read .refl h1
    · rw [Res.bind_eq_ok] at h
      obtain ⟨⟨rs', rd2⟩, h2, h⟩ := h
      simp only [Except.ok.injEq, Prod.mk.injEq] at h
      rw [← h.2]
      exact used_trans (.read .refl h1) (ih h2)

end Verif.Text
