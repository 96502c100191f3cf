import Verif.Proof.ReaderOps
import Verif.Props.ReaderFormats
/-!
# C35, C36, C38: reading, moving around in and counting a trace
-/

namespace Verif.Props.Reader
open Verif Verif.Reader Verif.Spec.Reader

/-- **C35** for every supported format, any options: opening a file of records and reading to the end delivers the expected requests -/
theorem C35_all (T : TraceFormat) (hT : T ∈ formats) (vs : List (Fld → Int)) (hF : T.File vs) (p : Params) (h0 : p.start = 0)
    (hr : RatioOk p.sampler) (hash : Nat → Nat) :
    ∃ rd, setup T.F (encodeAll T.L vs) p = .ok rd ∧ seen hash T.obs rd = .ok (T.expect hash p vs) := by
  have g := good_of_mem hT
  exact ⟨_, setup_file g hF p, seen_at g hF (onFile_fresh T vs p h0) hash rfl (sok_fresh hr)⟩

/-- the formats are not vacuous -/
example : formats.length = 20 ∧ formats.all (fun T => decide (T.obs.length ≥ 2)) = true := by decide

/-! ## reset and clone -/

/-- **C36** after any calls, `reset_reader` gives back the reader as it was opened (unless it samples every n-th request) -/
theorem C36_reset_partial (F : Fmt) (bytes : List Nat) (p : Params) (hash : Nat → Nat) (rd0 rd : Reader) (h0 : setup F bytes p = .ok rd0)
    (hn : NotTemporal p.sampler) (h : Reached hash rd0 rd) : reset rd = rd0 := by
  have e := setup_eq h0
  subst e
  obtain ⟨o, n, rfl⟩ := Reached.moved (h := h) (by
    unfold fresh
    cases hs : p.sampler with
    | none => trivial
    | some s => rw [hs] at hn; cases s with
      | spatial i => trivial
      | temporal a b => exact hn.elim)
  rfl

/-- two requests -/
def two : List (Fld → Int) :=
  [fun f => match f with | .time => 1 | .id => 10 | .size => 3 | _ => 0,
   fun f => match f with | .time => 2 | .id => 20 | .size => 5 | _ => 0]

example : Reached (fun _ => 1) (fresh oracleGeneral (encodeAll lOracleGeneral two) defaultParams)
    { fresh oracleGeneral (encodeAll lOracleGeneral two) defaultParams with off := 24, nRead := 1 } ∧
    ({ fresh oracleGeneral (encodeAll lOracleGeneral two) defaultParams with off := 24, nRead := 1 } : Reader).off ≠ 0 := by
  refine ⟨.step newRequest .read .refl ?_, by decide⟩
  rfl

/-- **C36** fails for a reader that samples every second request: the count of the sampler survives a reset, so that the first
request after it can be one that was not delivered before -/
theorem C36_reset_fails : ∃ (rd0 rd1 : Reader) (q : Request) (a b : List (List Int)),
    setup oracleGeneral (encodeAll lOracleGeneral (two ++ [fun f => match f with | .time => 3 | .id => 30 | .size => 5 | _ => 0]))
      { defaultParams with sampler := some (.temporal 2 0) } = .ok rd0 ∧
    (readAll (fun _ => 1) 100 rd0 q).map (fun r => r.1.map (fun q => [Fld.id].map q.vals)) = .ok a ∧
    (readAll (fun _ => 1) 100 rd0 q).map (fun r => r.2.sampler) = .ok rd1.sampler ∧ rd1 = { rd0 with sampler := rd1.sampler } ∧
    seen (fun _ => 1) [.id] (reset rd1) = .ok b ∧ a ≠ b :=
  ⟨_, { fresh oracleGeneral (encodeAll lOracleGeneral (two ++ [fun f => match f with | .time => 3 | .id => 30 | .size => 5 | _ => 0]))
      { defaultParams with sampler := some (.temporal 2 0) } with sampler := some (.temporal 2 1) }, newRequest, [[20]], [[10], [30]], rfl,
    by decide +kernel, by decide +kernel, rfl, by decide +kernel, by decide⟩

/-- **C36** a clone of a reader in any state is a newly opened reader with the same options -/
theorem C36_clone_partial (F : Fmt) (bytes : List Nat) (p : Params) (hash : Nat → Nat) (rd0 rd : Reader) (h0 : setup F bytes p = .ok rd0)
    (hn : NotTemporal p.sampler) (h : Reached hash rd0 rd) : clone rd = .ok rd0 ∧ clone rd = .ok (reset rd) := by
  have hr := C36_reset_partial F bytes p hash rd0 rd h0 hn h
  have e := setup_eq h0
  obtain ⟨o, n, hm⟩ := Reached.moved (h := h) (by
    rw [e]; unfold fresh
    cases hs : p.sampler with
    | none => trivial
    | some s => rw [hs] at hn; cases s with
      | spatial i => trivial
      | temporal a b => exact hn.elim)
  have hc : clone rd = .ok rd0 := by
    unfold clone
    rw [hm, e]
    rw [e] at h0
    exact h0
  exact ⟨hc, by rw [hr]; exact hc⟩

/-- a zero-size request in the middle -/
def withZero : List (Fld → Int) :=
  [fun f => match f with | .time => 1 | .id => 10 | .size => 3 | _ => 0,
   fun f => match f with | .time => 2 | .id => 20 | .size => 0 | _ => 0,
   fun f => match f with | .time => 3 | .id => 30 | .size => 5 | _ => 0]

/-- **C36** fails for readers opened without options (`init_params == NULL`): the clone delivers zero-size requests that the
original leaves out -/
theorem C36_clone_fails : ∃ rd rd', setupNull oracleGeneral (encodeAll lOracleGeneral withZero) 0 = .ok rd ∧ clone rd = .ok rd' ∧
    seen (fun _ => 1) [.id] rd = .ok [[10], [30]] ∧ seen (fun _ => 1) [.id] rd' = .ok [[10], [20], [30]] :=
  ⟨_, _, rfl, rfl, by decide +kernel, by decide +kernel⟩

/-! ## skipping -/

/-- `skip_n_req(n)` on a newly opened reader reports `min n (records)` and what is read afterwards are the requests of the remaining
records, whatever the options.  (It counts records: also the ones the reader leaves out.) -/
theorem C36_skip_records (T : TraceFormat) (hT : T ∈ formats) (vs : List (Fld → Int)) (hF : T.File vs) (p : Params) (h0 : p.start = 0)
    (hr : RatioOk p.sampler) (hash : Nat → Nat) (n : Nat) :
    ∃ rd, setup T.F (encodeAll T.L vs) p = .ok rd ∧ (skipN rd n).1 = min n vs.length ∧
      seen hash T.obs (skipN rd n).2 = .ok (T.expect hash p (vs.drop n)) := by
  have g := good_of_mem hT
  obtain ⟨h1, h2⟩ := skip_fresh g vs p h0 n
  refine ⟨_, setup_file g hF p, h1, ?_⟩
  rw [h2]
  have ho : OnFile T vs (min n vs.length) { fresh T.F (encodeAll T.L vs) p with off := min n vs.length * T.F.item } :=
    ⟨rfl, rfl, h0, rfl, by omega⟩
  rw [seen_at g hF ho hash rfl (sok_fresh (F := T.F) (bytes := encodeAll T.L vs) hr)]
  have : vs.drop (min n vs.length) = vs.drop n := by
    by_cases h : n ≤ vs.length
    · rw [Nat.min_eq_left h]
    · rw [Nat.min_eq_right (by omega), List.drop_length, List.drop_eq_nil_of_le (by omega)]
  rw [this]
  rfl

/-- without cap, sampler and left-out records the expected requests are those of the records, one by one -/
theorem expect_plain {T : TraceFormat} {vs : List (Fld → Int)} {p : Params} (hz : T.NoZero p.ignoreZero vs) (hc : ¬ p.cap > 1)
    (hs : p.sampler = none) (hash : Nat → Nat) :
    T.expect hash p vs = vs.map (fun v => T.obs.map (shownSize p.ignoreSize (T.mean v))) := by
  unfold TraceFormat.expect expected
  rw [hs]
  unfold capped
  rw [if_neg hc]
  simp only [Option.map_none, sampled]
  rw [List.filter_eq_self.2, List.map_map, List.map_map]
  · rfl
  · intro v hv
    obtain ⟨w, hw, rfl⟩ := List.mem_map.1 hv
    simp only [hz w hw, Bool.not_false]

theorem noZero_drop {T : TraceFormat} {b : Bool} {vs : List (Fld → Int)} (h : T.NoZero b vs) (n : Nat) : T.NoZero b (vs.drop n) :=
  fun v hv => h v (List.drop_subset n vs hv)

/-- **C36** (`_partial`: no left-out records, cap or sampler) skipping `n` requests and reading on is the same as dropping the first
`n` of all requests -/
theorem C36_skip_partial (T : TraceFormat) (hT : T ∈ formats) (vs : List (Fld → Int)) (hF : T.File vs) (p : Params) (h0 : p.start = 0)
    (hz : T.NoZero p.ignoreZero vs) (hc : ¬ p.cap > 1) (hs : p.sampler = none) (hash : Nat → Nat) (n : Nat) :
    ∃ rd l, setup T.F (encodeAll T.L vs) p = .ok rd ∧ seen hash T.obs rd = .ok l ∧ seen hash T.obs (skipN rd n).2 = .ok (l.drop n) := by
  have hr : RatioOk p.sampler := by rw [hs]; trivial
  obtain ⟨rd, e, _, es⟩ := C36_skip_records T hT vs hF p h0 hr hash n
  obtain ⟨rd', e', el⟩ := C35_all T hT vs hF p h0 hr hash
  rw [e] at e'
  injection e' with e'
  subst e'
  refine ⟨rd, _, e, el, ?_⟩
  rw [es, expect_plain (noZero_drop hz n) hc hs, expect_plain hz hc hs, List.map_drop]

/-- **C36** fails with zero-size requests: skipping 2 of the requests 10 and 30 leaves 30 to be read, because the zero-size record
between them counts -/
theorem C36_skip_fails : ∃ rd, setup oracleGeneral (encodeAll lOracleGeneral withZero) defaultParams = .ok rd ∧
    seen (fun _ => 1) [.id] rd = .ok [[10], [30]] ∧ (skipN rd 2).1 = 2 ∧ seen (fun _ => 1) [.id] (skipN rd 2).2 = .ok [[30]] :=
  ⟨_, rfl, by decide +kernel, by decide +kernel, by decide +kernel⟩

/-- **C36** fails with a cap: after skipping 1 of at most 2 requests, two more are read -/
theorem C36_skip_cap_fails : ∃ rd, setup oracleGeneral (encodeAll lOracleGeneral withZero) { defaultParams with cap := 2, ignoreZero := false } = .ok rd ∧
    seen (fun _ => 1) [.id] rd = .ok [[10], [20]] ∧ seen (fun _ => 1) [.id] (skipN rd 1).2 = .ok [[20], [30]] :=
  ⟨_, rfl, by decide +kernel, by decide +kernel⟩

/-! ## going back -/

/-- **C36** (`_partial`: no left-out records, cap or sampler) after reading `k + 1` requests, `go_back_one_req` succeeds and reading on
starts with the last request read; at the beginning it reports that there is nothing to go back to -/
theorem C36_goBack_partial (T : TraceFormat) (hT : T ∈ formats) (vs : List (Fld → Int)) (hF : T.File vs) (p : Params) (h0 : p.start = 0)
    (hz : T.NoZero p.ignoreZero vs) (hc : ¬ p.cap > 1) (hs : p.sampler = none) (hash : Nat → Nat) (k : Nat) (hk : k < vs.length) (q : Request) :
    ∃ rd l rd1 q1, setup T.F (encodeAll T.L vs) p = .ok rd ∧ seen hash T.obs rd = .ok l ∧ readN hash (k + 1) rd q = .ok (rd1, q1) ∧
      seen hash T.obs rd1 = .ok (l.drop (k + 1)) ∧ (goBackOne rd1).1 = 0 ∧ seen hash T.obs (goBackOne rd1).2 = .ok (l.drop k) ∧
      goBackOne rd = (1, rd) := by
  have g := good_of_mem hT
  have hr : RatioOk p.sampler := by rw [hs]; trivial
  have hp := g.pos
  rw [← g.item] at hp
  have hs' : (fresh T.F (encodeAll T.L vs) p).sampler = none := by simp [fresh, hs]
  obtain ⟨q1, e1, o1⟩ := readN_at g hF hash (k + 1) (onFile_fresh T vs p h0) q (by omega) hz hc hs'
  rw [Nat.zero_add] at e1 o1
  obtain ⟨rd', e', el⟩ := C35_all T hT vs hF p h0 hr hash
  rw [setup_file g hF p] at e'
  injection e' with e'
  subst e'
  have hback : goBackOne { fresh T.F (encodeAll T.L vs) p with off := (k + 1) * T.F.item, nRead := (fresh T.F (encodeAll T.L vs) p).nRead + (k + 1) } =
      (0, { fresh T.F (encodeAll T.L vs) p with off := k * T.F.item, nRead := (fresh T.F (encodeAll T.L vs) p).nRead + (k + 1) }) := by
    unfold goBackOne
    have e1 : (k + 1) * T.F.item = k * T.F.item + T.F.item := by rw [Nat.add_mul]; omega
    simp only [fresh, h0, Nat.zero_add, e1, ge_iff_le]
    rw [if_pos (by omega), Nat.add_sub_cancel]
  have plain : ∀ j (rd : Reader), OnFile T vs j rd → rd.fwd = true → rd.sampler = none → rd.cap = p.cap → rd.ignoreZero = p.ignoreZero →
      rd.ignoreSize = p.ignoreSize → seen hash T.obs rd = .ok ((T.expect hash p vs).drop j) := by
    intro j rd ho hf hsm hcp hiz his
    rw [seen_at g hF ho hash hf (by rw [hsm]; trivial), hsm, hcp, hiz, his]
    have e2 := expect_plain (p := p) (noZero_drop hz j) hc hs hash
    unfold TraceFormat.expect expected capped at e2
    rw [if_neg hc, hs] at e2
    unfold capped
    rw [if_neg hc]
    simp only [Option.map_none] at e2
    rw [e2, expect_plain hz hc hs, List.map_drop]
  refine ⟨_, _, _, q1, setup_file g hF p, el, e1, plain _ _ o1 rfl hs' rfl rfl rfl, by rw [hback], ?_, ?_⟩
  · rw [hback]
    exact plain k _ ⟨rfl, rfl, h0, rfl, by omega⟩ rfl hs' rfl rfl rfl
  · unfold goBackOne
    rw [if_neg]
    simp only [fresh, h0, Nat.zero_add]
    omega

example : (⟨oracleGeneral, lOracleGeneral, [.time, .id, .size, .next], fun _ => True, fun v => Vals.set v .next (nextOf (v .next)), zeroSize, false⟩ : TraceFormat) ∈ formats ∧
    TraceFormat.File ⟨oracleGeneral, lOracleGeneral, [.time, .id, .size, .next], fun _ => True, fun v => Vals.set v .next (nextOf (v .next)), zeroSize, false⟩ two ∧
    TraceFormat.NoZero ⟨oracleGeneral, lOracleGeneral, [.time, .id, .size, .next], fun _ => True, fun v => Vals.set v .next (nextOf (v .next)), zeroSize, false⟩ true two := by
  refine ⟨List.mem_cons_self .., ⟨?_, by decide⟩, ?_⟩
  · intro v hv
    simp only [two, List.mem_cons, List.not_mem_nil, or_false] at hv
    rcases hv with rfl | rfl <;> exact ⟨by simp [Fits, fits, lOracleGeneral], trivial⟩
  · intro v hv
    simp only [two, List.mem_cons, List.not_mem_nil, or_false] at hv
    rcases hv with rfl | rfl <;> simp [zeroSize, Vals.set]

/-- **C36** fails with a zero-size request: after reading 10, 30 going back and reading delivers 30 again, but going back once more and
reading again delivers 30 a third time instead of 10 -/
theorem C36_goBack_fails : ∃ rd rd1 q1, setup oracleGeneral (encodeAll lOracleGeneral withZero) defaultParams = .ok rd ∧
    seen (fun _ => 1) [.id] rd = .ok [[10], [30]] ∧
    readN (fun _ => 1) 2 rd newRequest = .ok (rd1, q1) ∧ (goBackOne rd1).1 = 0 ∧ (goBackOne (goBackOne rd1).2).1 = 0 ∧
    seen (fun _ => 1) [.id] (goBackOne (goBackOne rd1).2).2 = .ok [[30]] :=
  ⟨_, _, _, rfl, by decide +kernel, rfl, by decide +kernel, by decide +kernel, by decide +kernel⟩

/-- **C36** fails with a cap: with at most 2 requests to read, after reading both and going back, nothing is read -/
theorem C36_goBack_cap_fails : ∃ rd rd1 q1, setup oracleGeneral (encodeAll lOracleGeneral two) { defaultParams with cap := 2 } = .ok rd ∧
    readN (fun _ => 1) 2 rd newRequest = .ok (rd1, q1) ∧ (goBackOne rd1).1 = 0 ∧ seen (fun _ => 1) [.id] (goBackOne rd1).2 = .ok [] :=
  ⟨_, _, _, rfl, rfl, by decide +kernel, by decide +kernel⟩

/-! ## counting -/

/-- `get_num_of_req` is the number of records, in every state reached from an opened reader -/
theorem C36_count_records (T : TraceFormat) (hT : T ∈ formats) (vs : List (Fld → Int)) (hF : T.File vs) (p : Params) (h0 : p.start = 0)
    (hn : NotTemporal p.sampler) (hash : Nat → Nat) (rd0 rd : Reader) (e : setup T.F (encodeAll T.L vs) p = .ok rd0) (h : Reached hash rd0 rd) :
    numReq rd = .ok vs.length := by
  have g := good_of_mem hT
  have hp := g.pos
  rw [← g.item] at hp
  have hr := C36_reset_partial T.F _ p hash rd0 rd e hn h
  have : numReq rd = numReq rd0 := by rw [← hr]; rfl
  rw [this, setup_eq e]
  unfold numReq
  simp only [fresh, h0, Nat.sub_zero, file_len g, Nat.mul_div_cancel _ hp]
  have : vs.length ≠ 0 := fun h => hF.2 (List.length_eq_zero_iff.1 h)
  rw [if_pos (by omega)]

/-- **C36** (`_partial`: no left-out records, cap or sampler) the reported number of requests is the number that can be read -/
theorem C36_count_partial (T : TraceFormat) (hT : T ∈ formats) (vs : List (Fld → Int)) (hF : T.File vs) (p : Params) (h0 : p.start = 0)
    (hz : T.NoZero p.ignoreZero vs) (hc : ¬ p.cap > 1) (hs : p.sampler = none) (hash : Nat → Nat) :
    ∃ rd l, setup T.F (encodeAll T.L vs) p = .ok rd ∧ seen hash T.obs rd = .ok l ∧ numReq rd = .ok l.length := by
  have hr : RatioOk p.sampler := by rw [hs]; trivial
  obtain ⟨rd, e, el⟩ := C35_all T hT vs hF p h0 hr hash
  refine ⟨rd, _, e, el, ?_⟩
  rw [C36_count_records T hT vs hF p h0 (by rw [hs]; trivial) hash rd rd e .refl, expect_plain hz hc hs, List.length_map]

/-- **C36** fails with a zero-size request: 3 requests are reported, 2 can be read -/
theorem C36_count_fails : ∃ rd, setup oracleGeneral (encodeAll lOracleGeneral withZero) defaultParams = .ok rd ∧
    seen (fun _ => 1) [.id] rd = .ok [[10], [30]] ∧ numReq rd = .ok 3 :=
  ⟨_, rfl, by decide +kernel, by decide +kernel⟩

/-- **C36** fails for a cap of 1, which is ignored -/
theorem C36_capOne_fails : ∃ rd, setup oracleGeneral (encodeAll lOracleGeneral two) { defaultParams with cap := 1 } = .ok rd ∧
    seen (fun _ => 1) [.id] rd = .ok [[10], [20]] :=
  ⟨_, rfl, by decide +kernel⟩

/-! ## reading backwards -/

/-- **C36** (`_partial`: no cap, no sampler; for the formats that leave out records also backwards, no such records) reading a trace
backwards delivers all its records in reverse order -/
theorem C36_backward_partial (T : TraceFormat) (hT : T ∈ formats) (vs : List (Fld → Int)) (hF : T.File vs) (p : Params) (h0 : p.start = 0)
    (hz : T.both = true → T.NoZero p.ignoreZero vs) (hc : ¬ p.cap > 1) (hs : p.sampler = none) (hash : Nat → Nat) (q : Request) :
    ∃ rd qs, setup T.F (encodeAll T.L vs) p = .ok rd ∧ readBackward hash rd q = .ok qs ∧ (∀ q ∈ qs, q.valid = true) ∧
      qs.map (fun q => T.obs.map q.vals) = (vs.map (fun v => T.obs.map (shownSize p.ignoreSize (T.mean v)))).reverse := by
  have g := good_of_mem hT
  obtain ⟨qs, e, v, m⟩ := readBackward_at g hF hash p h0 hz hc hs q
  refine ⟨_, qs, setup_file g hF p, e, v, ?_⟩
  rw [m, List.map_map, ← List.map_reverse]
  rfl

/-- **C36** fails backwards for a wiki trace with a zero-size request: the reader steps over it in the forward direction and delivers
the request after it again and again -/
theorem C36_backward_fails : ∃ rd, setup wiki2019u (encodeAll lWiki19u withZero) defaultParams = .ok rd ∧
    ∃ q rd1 rd2, readOne (fun _ => 1) (goBackOne (setPos { rd with fwd := false } rd.bytes.length)).2 newRequest = .ok (0, rd1, q) ∧
      q.vals .id = 30 ∧ rd2 = { rd1 with nRead := 2 } ∧ (readAbove (fun _ => 1) rd1 q).map (fun r => (r.1, r.2.1.off, r.2.1.nRead, r.2.2.vals .id)) = .ok (0, rd2.off, 2, 30) :=
  ⟨_, rfl, _, _, _, rfl, by decide +kernel, rfl, by decide +kernel⟩

end Verif.Props.Reader
