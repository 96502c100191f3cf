import Verif.Proof.ReaderHeader
import Verif.Props.ReaderOps
/-!
# C35, C36 for traces with a header

`trace_start_offset` bytes at the beginning of the file are not records.
-/

namespace Verif.Props.Reader
open Verif Verif.Reader Verif.Spec.Reader

/-- **C35** a header of any length and content is passed over: what is read are the requests of the records after it -/
theorem C35_header (T : TraceFormat) (hT : T ∈ formats) (hd : List Nat) (vs : List (Fld → Int)) (hF : T.File vs) (p : Params)
    (h0 : p.start = hd.length) (hr : RatioOk p.sampler) (hash : Nat → Nat) :
    ∃ rd, setup T.F (hd ++ encodeAll T.L vs) p = .ok rd ∧ seen hash T.obs rd = .ok (T.expect hash p vs) := by
  have g := good_of_mem hT
  refine ⟨_, setup_header g hF hd p, ?_⟩
  exact seen_header g hF hd (Nat.zero_le _) rfl rfl h0 (by simp [fresh, h0]) hash rfl (sok_fresh hr)

/-- **C36** `skip_n_req` in a file with a header -/
theorem C36_skip_header (T : TraceFormat) (hT : T ∈ formats) (hd : List Nat) (vs : List (Fld → Int)) (hF : T.File vs) (p : Params)
    (h0 : p.start = hd.length) (hr : RatioOk p.sampler) (hash : Nat → Nat) (n : Nat) :
    ∃ rd, setup T.F (hd ++ encodeAll T.L vs) p = .ok rd ∧ (skipN rd n).1 = min n vs.length ∧
      seen hash T.obs (skipN rd n).2 = .ok (T.expect hash p (vs.drop n)) := by
  have g := good_of_mem hT
  have hp := g.pos
  rw [← g.item] at hp
  have hk : (skipN (fresh T.F (hd ++ encodeAll T.L vs) p) n).1 = min n vs.length ∧
      (skipN (fresh T.F (hd ++ encodeAll T.L vs) p) n).2 = { fresh T.F (hd ++ encodeAll T.L vs) p with off := hd.length + min n vs.length * T.F.item } := by
    unfold skipN
    simp only [fresh, List.length_append, file_len g, h0]
    by_cases hn : n ≤ vs.length
    · have := Nat.mul_le_mul_right T.F.item hn
      rw [if_pos (by omega), Nat.min_eq_left hn]; exact ⟨rfl, rfl⟩
    · have : ¬ n * T.F.item ≤ vs.length * T.F.item := fun hh => hn (Nat.le_of_mul_le_mul_right hh hp)
      rw [if_neg (by omega), Nat.min_eq_right (by omega), Nat.add_sub_cancel_left, Nat.mul_div_cancel _ hp]; exact ⟨rfl, rfl⟩
  refine ⟨_, setup_header g hF hd p, hk.1, ?_⟩
  rw [hk.2]
  have := seen_header g hF hd (k := min n vs.length) (Nat.min_le_right _ _)
    (rd := { fresh T.F (hd ++ encodeAll T.L vs) p with off := hd.length + min n vs.length * T.F.item }) rfl rfl h0 rfl hash rfl
    (sok_fresh (F := T.F) (bytes := hd ++ encodeAll T.L vs) hr)
  rw [this]
  have : vs.drop (min n vs.length) = vs.drop n := by
    by_cases h : n ≤ vs.length
    · rw [Nat.min_eq_left h]
    · rw [Nat.min_eq_right (by omega), List.drop_length, List.drop_eq_nil_of_le (by omega)]
  rw [this]
  rfl

/-- **C36** `get_num_of_req` does not count the header -/
theorem C36_count_header (T : TraceFormat) (hT : T ∈ formats) (hd : List Nat) (vs : List (Fld → Int)) (hF : T.File vs) (p : Params)
    (h0 : p.start = hd.length) (hn : NotTemporal p.sampler) (hash : Nat → Nat) (rd0 rd : Reader)
    (e : setup T.F (hd ++ encodeAll T.L vs) p = .ok rd0) (h : Reached hash rd0 rd) : numReq rd = .ok vs.length := by
  have g := good_of_mem hT
  have hp := g.pos
  rw [← g.item] at hp
  have hr := C36_reset_partial T.F _ p hash rd0 rd e hn h
  have : numReq rd = numReq rd0 := by rw [← hr]; rfl
  rw [this, setup_eq e]
  unfold numReq
  simp only [fresh, h0, List.length_append, file_len g, Nat.add_sub_cancel_left, Nat.mul_div_cancel _ hp]
  have : vs.length ≠ 0 := fun h => hF.2 (List.length_eq_zero_iff.1 h)
  rw [if_pos (by omega)]

/-- **C36** `go_back_one_req` in a file with a header: it refuses to go back into the header, and after skipping `k + 1` records it
goes back to record `k` -/
theorem C36_goBack_header (T : TraceFormat) (hT : T ∈ formats) (hd : List Nat) (vs : List (Fld → Int)) (hF : T.File vs) (p : Params)
    (h0 : p.start = hd.length) (hr : RatioOk p.sampler) (hash : Nat → Nat) (k : Nat) (hk : k < vs.length) :
    ∃ rd, setup T.F (hd ++ encodeAll T.L vs) p = .ok rd ∧ goBackOne rd = (1, rd) ∧ (goBackOne (skipN rd (k + 1)).2).1 = 0 ∧
      seen hash T.obs (goBackOne (skipN rd (k + 1)).2).2 = .ok (T.expect hash p (vs.drop k)) := by
  have g := good_of_mem hT
  have hp := g.pos
  rw [← g.item] at hp
  have e1 : (k + 1) * T.F.item = k * T.F.item + T.F.item := by rw [Nat.add_mul]; omega
  have hle : (k + 1) * T.F.item ≤ vs.length * T.F.item := Nat.mul_le_mul_right _ hk
  have hb : goBackOne (skipN (fresh T.F (hd ++ encodeAll T.L vs) p) (k + 1)).2 =
      (0, { fresh T.F (hd ++ encodeAll T.L vs) p with off := hd.length + k * T.F.item }) := by
    unfold skipN
    simp only [fresh, List.length_append, file_len g, h0]
    rw [if_pos (by omega)]
    unfold goBackOne
    simp only [e1]
    rw [if_pos (by omega)]
    congr 2
    omega
  refine ⟨_, setup_header g hF hd p, ?_, by rw [hb], ?_⟩
  · unfold goBackOne
    rw [if_neg]
    simp only [fresh]; omega
  · rw [hb]
    exact seen_header g hF hd (k := k) (Nat.le_of_lt hk)
      (rd := { fresh T.F (hd ++ encodeAll T.L vs) p with off := hd.length + k * T.F.item }) rfl rfl h0 rfl hash rfl
      (sok_fresh (F := T.F) (bytes := hd ++ encodeAll T.L vs) hr)

/-- a header of five bytes in front of two oracleGeneral records -/
def headed : Res Reader := setup oracleGeneral ([1, 2, 3, 4, 5] ++ encodeAll lOracleGeneral two) { defaultParams with start := 5 }

example : ∃ rd, headed = .ok rd ∧ seen (fun _ => 1) [.id, .size] rd = .ok [[10, 3], [20, 5]] ∧ numReq rd = .ok 2 ∧
    seen (fun _ => 1) [.id, .size] (skipN rd 1).2 = .ok [[20, 5]] :=
  ⟨_, rfl, by decide +kernel, by decide +kernel, by decide +kernel⟩

/-- **C36** fails for `read_last_req` and reading backwards with a header that is not a multiple of the record size: the position
is rounded down to a multiple of the record size from the beginning of the file instead of from the end of the header, so that the
last request read is not one of the trace -/
theorem C36_last_header_fails : ∃ rd, headed = .ok rd ∧ seen (fun _ => 1) [.id] rd = .ok [[10], [20]] ∧
    (readLast (fun _ => 1) rd newRequest).map (fun r => r.2.vals .id) ≠ .ok 20 :=
  ⟨_, rfl, by decide +kernel, by decide +kernel⟩

end Verif.Props.Reader
