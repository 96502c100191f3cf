import Verif.Proof.Lcs
import Verif.Props.ReaderOps
import Verif.Tools.LcsHeader
/-!
# C87: lcs traces (libCacheSim/traceReader/generalReader/lcs.c)
-/

namespace Verif.Props.Reader
open Verif Verif.Reader Verif.Spec.Reader Verif.Spec.BinFmt
open Verif.Spec.Lcs (Header File expect Records)
set_option maxRecDepth 20000

/-- **C87** (`_partial`: integer letters, values of unsigned letters below half their range, see C38) an lcs file is opened, and reading it to the end delivers the values of the fields its header names: all
records in order, at most `cap` of them, sampled, with sizes replaced by 1 on request. -/
theorem C87_read_partial (h : Header) (rs : List (List Int)) (body : List Nat) (hf : File h rs body) (p : Params) (hp : p.start = 0) (hr : RatioOk p.sampler) (hash : Nat → Nat) :
    ∃ rd, Lcs.setup (h.bytes ++ body) p = .ok rd ∧ seen hash h.given rd = .ok (expect h hash p rs) := by
  obtain ⟨F, h1, h2, h3⟩ := Lcs.fmt_of hf.header
  refine ⟨_, Lcs.setup_spec hf.header h1 h2 body p hp, ?_⟩
  have := Lcs.seen_spec hf h1 h2 h3 hash p hr (Nat.zero_le rs.length)
  rw [Nat.zero_mul, Nat.add_zero, List.drop_zero] at this
  exact this

theorem lcs_count {F : Fmt} {bytes : List Nat} {p : Params} {hash : Nat → Nat} {rd0 rd : Reader} {n : Nat} (hn : NotTemporal p.sampler) (hr : Reached hash rd0 rd) (hpos : 0 < F.item)
    (hlen : bytes.length = 1024 + n * F.item) (hne : n ≠ 0) (e : fresh F bytes { p with start := 1024 } = rd0) : numReq rd = .ok n ∧ reset rd = rd0 ∧ clone rd = .ok rd0 := by
  have hset : setup F bytes { p with start := 1024 } = .ok rd0 := by
    rw [← e]
    unfold setup
    have : bytes.length ≠ 0 := by omega
    simp only [this, if_false]
    rfl
  have hres := C36_reset_partial F bytes { p with start := 1024 } hash rd0 rd hset hn hr
  refine ⟨?_, hres, (C36_clone_partial F bytes { p with start := 1024 } hash rd0 rd hset hn hr).1⟩
  have h0 : numReq rd = numReq rd0 := by rw [← hres]; rfl
  rw [h0, ← e]
  unfold numReq
  simp only [fresh, hlen, Nat.add_sub_cancel_left, Nat.mul_div_cancel _ hpos]
  rw [if_pos (by omega)]

/-- **C87** in every state reached from an opened lcs reader (without temporal sampler) the number of requests is the number of records, `reset_reader` gives back the reader as it was opened, and so
does `clone_reader`, which takes the file for a binary trace. -/
theorem C87_count_partial (h : Header) (rs : List (List Int)) (body : List Nat) (hf : File h rs body) (p : Params) (hp : p.start = 0) (hn : NotTemporal p.sampler) (hash : Nat → Nat) (rd0 rd : Reader)
    (e : Lcs.setup (h.bytes ++ body) p = .ok rd0) (hr : Reached hash rd0 rd) : numReq rd = .ok rs.length ∧ reset rd = rd0 ∧ clone rd = .ok rd0 := by
  obtain ⟨F, h1, h2, h3⟩ := Lcs.fmt_of hf.header
  have hpos : 0 < F.item := by rw [h2]; exact Lcs.recordSize_pos hf.header.letters (fun e => by have := hf.header.id; rw [e] at this; simp at this; omega)
  have hlen : (h.bytes ++ body).length = 1024 + rs.length * F.item := by
    rw [List.length_append, Lcs.header_length hf.header, Lcs.records_length hf.records hf.header.letters, h2]
  have e' := (Lcs.setup_spec hf.header h1 h2 body p hp).symm.trans e
  have hne : rs.length ≠ 0 := fun h => hf.some (List.length_eq_zero_iff.1 h)
  generalize h.bytes ++ body = bytes at hlen e'
  clear e
  exact lcs_count hn hr hpos hlen hne (Except.ok.inj e')

/-- **C87** `skip_n_req` in a freshly opened lcs trace skips records -/
theorem C87_skip_partial (h : Header) (rs : List (List Int)) (body : List Nat) (hf : File h rs body) (p : Params) (hp : p.start = 0) (hr : RatioOk p.sampler) (hash : Nat → Nat) (n : Nat) :
    ∃ rd, Lcs.setup (h.bytes ++ body) p = .ok rd ∧ (skipN rd n).1 = min n rs.length ∧ seen hash h.given (skipN rd n).2 = .ok (expect h hash p (rs.drop n)) := by
  obtain ⟨F, h1, h2, h3⟩ := Lcs.fmt_of hf.header
  have hpos : 0 < F.item := by rw [h2]; exact Lcs.recordSize_pos hf.header.letters (fun e => by have := hf.header.id; rw [e] at this; simp at this; omega)
  have hlen : (h.bytes ++ body).length = 1024 + rs.length * F.item := by
    rw [List.length_append, Lcs.header_length hf.header, Lcs.records_length hf.records hf.header.letters, h2]
  have hk : (skipN (fresh F (h.bytes ++ body) { p with start := 1024 }) n).1 = min n rs.length ∧
      (skipN (fresh F (h.bytes ++ body) { p with start := 1024 }) n).2 = { fresh F (h.bytes ++ body) { p with start := 1024 } with off := 1024 + min n rs.length * F.item } := by
    unfold skipN
    simp only [fresh, hlen]
    by_cases hn : n ≤ rs.length
    · have := Nat.mul_le_mul_right F.item hn
      rw [if_pos (by omega), Nat.min_eq_left hn]; exact ⟨rfl, rfl⟩
    · have : ¬ n * F.item ≤ rs.length * F.item := fun hh => hn (Nat.le_of_mul_le_mul_right hh hpos)
      rw [if_neg (by omega), Nat.min_eq_right (by omega), Nat.add_sub_cancel_left, Nat.mul_div_cancel _ hpos]; exact ⟨rfl, rfl⟩
  refine ⟨_, Lcs.setup_spec hf.header h1 h2 body p hp, hk.1, ?_⟩
  rw [hk.2, Lcs.seen_spec hf h1 h2 h3 hash p hr (Nat.min_le_right n rs.length)]
  congr 2
  by_cases h : n ≤ rs.length
  · rw [Nat.min_eq_left h]
  · rw [Nat.min_eq_right (by omega), List.drop_length, List.drop_eq_nil_of_le (by omega)]

/-- **C87** whatever file is opened as an lcs trace has a header: both magic numbers, a format that starts with `<`, as many letters as it says fields, records of the size it says, and an object id
field among them.  Any other file, and any file too short for a header, is refused. -/
theorem C87_reject (bytes : List Nat) (p : Params) (rd : Reader) (e : Lcs.setup bytes p = .ok rd) :
    leU bytes p.start 8 = .ok 0x123456789abcdef0 ∧ leU bytes (p.start + 1016) 8 = .ok 0x123456789abcdef0 ∧
    ∃ (letters : List Char) (i : Nat) (rest : List Nat), (bytes.drop (p.start + 8)).map Char.ofNat = '<' :: letters ++ Char.ofNat 0 :: rest.map Char.ofNat ∧
      leU bytes (p.start + 1000) 4 = .ok letters.length ∧ leU bytes (p.start + 1004) 4 = .ok rd.fmt.item ∧ leU bytes (p.start + 248) 1 = .ok i ∧ 1 ≤ i ∧ i ≤ letters.length ∧
      rd.start = 1024 ∧ rd.off = p.start + 1024 ∧ rd.bytes = bytes := by
  unfold Lcs.setup at e
  split at e
  · cases e
  split at e
  · cases e
  obtain ⟨hd, e1, e⟩ := Res.bind_eq_ok.1 e
  obtain ⟨_, e2, e⟩ := Res.bind_eq_ok.1 e
  unfold Lcs.readHeader at e1
  obtain ⟨m, r1, e1⟩ := Res.bind_eq_ok.1 e1
  obtain ⟨f, r2, e1⟩ := Res.bind_eq_ok.1 e1
  obtain ⟨i, r3, e1⟩ := Res.bind_eq_ok.1 e1
  obtain ⟨_, _, e1⟩ := Res.bind_eq_ok.1 e1
  obtain ⟨_, _, e1⟩ := Res.bind_eq_ok.1 e1
  obtain ⟨_, _, e1⟩ := Res.bind_eq_ok.1 e1
  obtain ⟨_, _, e1⟩ := Res.bind_eq_ok.1 e1
  obtain ⟨k, r4, e1⟩ := Res.bind_eq_ok.1 e1
  obtain ⟨c, r5, e1⟩ := Res.bind_eq_ok.1 e1
  obtain ⟨s, r6, e1⟩ := Res.bind_eq_ok.1 e1
  injection e1 with e1
  subst e1
  unfold Lcs.verify at e2
  dsimp only at e2 e
  split at e2
  · cases e2
  rename_i v1
  split at e2
  · cases e2
  rename_i v2
  split at e2
  · cases e2
  rename_i v3
  split at e2
  · cases e2
  rename_i v4
  split at e
  · cases e
  rename_i v5
  split at e
  · cases e
  rename_i F hF
  split at e
  · cases e
  rename_i v6
  injection e with e
  subst e
  unfold Lcs.cString at r2
  split at r2
  swap
  · cases r2
  rename_i hz
  injection r2 with r2
  have hm : m = 0x123456789abcdef0 := by simpa [Lcs.magic] using v1
  have hs : s = 0x123456789abcdef0 := by simpa [Lcs.magic] using v2
  refine ⟨hm ▸ r1, hs ▸ r6, ?_⟩
  obtain ⟨letters, hlet⟩ : ∃ letters, f.map Char.ofNat = '<' :: letters := by
    cases hfm : f.map Char.ofNat with
    | nil => rw [hfm] at v5; simp at v5
    | cons a l => rw [hfm] at v5; simp at v5; exact ⟨l, by rw [v5]⟩
  have hlen : k = letters.length := by
    rw [hlet] at v3
    simp at v3
    exact v3
  have hsplit : ∃ rest, bytes.drop (p.start + 8) = f ++ 0 :: rest := by
    rw [← r2]
    have : ∀ l : List Nat, 0 ∈ l → ∃ rest, l = l.takeWhile (fun b => b ≠ 0) ++ 0 :: rest := by
      intro l
      induction l with
      | nil => simp
      | cons a l ih =>
        intro ha
        by_cases h0 : a = 0
        · subst h0; exact ⟨l, by simp⟩
        · obtain ⟨rest, hh⟩ := ih (by simpa [Ne.symm h0] using ha)
          refine ⟨rest, ?_⟩
          rw [List.takeWhile_cons_of_pos (by simpa using h0), List.cons_append, ← hh]
    exact this _ hz
  obtain ⟨rest, hrest⟩ := hsplit
  have hi : 1 ≤ i := by
    unfold binFmt at hF
    split at hF
    · cases hF
    · omega
  refine ⟨letters, i, rest, ?_, hlen ▸ r4, ?_, r3, hi, by rw [← hlen]; omega, rfl, rfl, rfl⟩
  · rw [hrest, List.map_append, hlet]; rfl
  · have : c = F.item := by
      by_contra hh
      exact v6 (fun e => hh e.symm)
    rw [← this]; exact r5

/-- two records: object id (unsigned), size, next request -/
def lcsHead : Header := ⟨['Q', 'I', 'q'], 1, 2, 0, 0, 3, 0, 0, 0, 0, List.replicate 231 7, List.replicate 512 9, List.replicate 8 1⟩
def lcsBody : List Nat := [5, 0, 0, 0, 0, 0, 0, 0, 100, 0, 0, 0, 255, 255, 255, 255, 255, 255, 255, 255] ++ ([6, 1, 0, 0, 0, 0, 0, 0, 44, 1, 0, 0, 8, 0, 0, 0, 0, 0, 0, 0] ++ [])

theorem lcsHead_ok : lcsHead.Ok := by
  refine ⟨?_, ?_, ?_, ?_, ?_, ?_, ?_, ?_, ?_, ?_⟩ <;> decide

example : File lcsHead [[5, 100, -1], [262, 300, 8]] lcsBody := by
  refine ⟨lcsHead_ok, ?_, by simp, ?_, ?_⟩
  · refine .cons ?_ (.cons ?_ .nil)
    · exact .cons (w := 8) (s := false) (v := 5) rfl (by simp [fits]) (.cons (w := 4) (s := false) (v := 100) rfl (by simp [fits]) (.cons (w := 8) (s := true) (v := -1) rfl (by simp [fits]) .nil))
    · exact .cons (w := 8) (s := false) (v := 262) rfl (by simp [fits]) (.cons (w := 4) (s := false) (v := 300) rfl (by simp [fits]) (.cons (w := 8) (s := true) (v := 8) rfl (by simp [fits]) .nil))
  · intro vs hv
    simp only [List.mem_cons, List.not_mem_nil, or_false] at hv
    rcases hv with rfl | rfl <;> refine ⟨?_, ?_, ?_, trivial⟩ <;> (intro w s h; simp [letter] at h; obtain ⟨rfl, _⟩ := h; decide)
  · intro vs hv f hf
    simp only [List.mem_cons, List.not_mem_nil, or_false] at hv
    have : f = .id ∨ f = .size ∨ f = .next := by simpa [Header.given, Header.fields, lcsHead] using hf
    rcases hv with rfl | rfl <;> rcases this with rfl | rfl | rfl <;> simp [Spec.Lcs.Storable, Header.values, Header.fields, lcsHead]

example : ∃ rd, Lcs.setup (lcsHead.bytes ++ lcsBody) defaultParams = .ok rd ∧ seen (fun _ => 1) [.id, .size, .next] rd = .ok [[5, 100, -1], [262, 300, 8]] ∧ numReq rd = .ok 2 :=
  ⟨_, rfl, by decide +kernel, by decide +kernel⟩

/-- **C87** fails for unsigned letters: an object of 2^31 bytes in a field `I` is read with a negative size -/
theorem C87_unsigned_fails : (Lcs.setup (lcsHead.bytes ++ [5, 0, 0, 0, 0, 0, 0, 0, 0, 0, 0, 128, 8, 0, 0, 0, 0, 0, 0, 0]) defaultParams >>= fun rd => seen (fun _ => 1) [.id, .size, .next] rd) =
    .ok [[5, -2147483648, 8]] := by decide +kernel

/-- **C87** fails for `read_last_req`: the end of the file is rounded down to a multiple of the record size (20) as if there were no header (1024 bytes), and what is read is not the last record -/
theorem C87_last_fails : (Lcs.setup (lcsHead.bytes ++ lcsBody) defaultParams >>= fun rd => readLast (fun _ => 1) rd newRequest >>= fun r => .ok (r.2.vals .id)) ≠ .ok 262 := by decide +kernel

/-- **C87** fails for the header `convert_to_oracleGeneral` writes on request: its format string has no terminating zero of its own; unless the memory after it happens to be zero, the check of the header
aborts -/
theorem C87_write_fails : (TraceConv.writeLcs (List.replicate 1024 65) 1 1 100 100 []).toOption = none ∧ (TraceConv.writeLcs (List.replicate 1024 0) 1 1 100 100 []).toOption.isSome = true := by
  refine ⟨?_, ?_⟩ <;> decide +kernel

/-- **C87** fails for what `convert_to_oracleGeneral` writes on request: the operation field is not initialised either, and a request gets one of its other fields for operation -/
theorem C87_writeOp_fails : (TraceConv.writeLcs ((List.replicate 1024 0).set 253 3) 1 1 100 100 (TraceConv.Rec.bytes ⟨1, 2, 100, -1⟩) >>= fun f => Lcs.setup f defaultParams >>= fun rd =>
    seen (fun _ => 1) [.time, .id, .size, .next, .op] rd) = .ok [[1, 2, 100, -1, 100]] := by decide +kernel

end Verif.Props.Reader
