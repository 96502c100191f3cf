import Verif.Proof.Zstd
import Verif.Props.ReaderOps
/-!
# C88: compressed traces
-/

namespace Verif.Props.Zstd
open Verif Verif.Reader Verif.Spec.Reader
open Verif.Reader.Zstd (Codec ZReader)
open Verif.Spec.Zstd (Decodes)

theorem mem_formats {T : TraceFormat} (h : T ∈ Spec.Zstd.formats) : T ∈ formats := List.mem_of_mem_take h

theorem within_of_mem {T : TraceFormat} (h : T ∈ Spec.Zstd.formats) : Zstd.Within T.F := by
  simp only [Spec.Zstd.formats, formats, List.take_succ_cons, List.take_zero, List.mem_cons, List.not_mem_nil, or_false] at h
  rcases h with rfl | rfl | rfl | rfl | rfl | rfl | rfl | rfl | rfl | rfl | rfl | rfl | rfl | rfl | rfl | rfl | rfl | rfl <;>
    (unfold Zstd.Within; decide)

theorem read_file {T : TraceFormat} (hT : T ∈ Spec.Zstd.formats) {vs : List (Fld → Int)} (hF : T.File vs) {C : Codec} {comp : List Nat}
    (D : Decodes C comp (encodeAll T.L vs)) (hc : comp ≠ []) {p : Params} (h0 : p.start = 0) (hr : RatioOk p.sampler) {inSize outSize : Nat} (hi : 0 < inSize)
    (ho : T.F.item ≤ outSize) (hash : Nat → Nat) {lim : Nat} (hl : (encodeAll T.L vs).length + 1 ≤ lim) :
    ∃ zr qs zr', Zstd.setup C inSize outSize T.F comp p = .ok zr ∧ Zstd.Sim D outSize p.cap zr (fresh T.F (encodeAll T.L vs) p) ∧
      Zstd.readAll hash lim lim zr newRequest = .ok (qs, zr') ∧
      qs.map (fun q => T.obs.map q.vals) <+: T.expect hash p vs ∧ (p.cap ≤ 1 → Zstd.Dead D outSize zr') ∧
      (Zstd.Whole D outSize → qs.map (fun q => T.obs.map q.vals) = T.expect hash p vs) := by
  have g := good_of_mem (mem_formats hT)
  have hp := g.pos
  rw [← g.item] at hp
  obtain ⟨zr, e, hs⟩ := Zstd.sim_setup (D := D) hi hc h0 hp ho (within_of_mem hT) (file_len g (vs := vs))
  have hseen : seen hash T.obs (fresh T.F (encodeAll T.L vs) p) = .ok (T.expect hash p vs) := seen_at g hF (onFile_fresh T vs p h0) hash rfl (sok_fresh hr)
  unfold seen at hseen
  obtain ⟨⟨qs, rd'⟩, e1, e2⟩ := Res.bind_eq_ok.1 hseen
  injection e2 with e2
  obtain ⟨qs2, zr', e3, e4, e5, e6⟩ := Zstd.readAll_sim hash hl _ lim zr _ newRequest qs rd' hs (sok_fresh hr) hl e1
  exact ⟨zr, qs2, zr', e, hs, e3, by rw [← e2]; exact e4.map _, e5, fun w => by rw [← e2, e6 w]⟩

/-- **C88** (`_partial`: what the decoder holds back when the file ends may be missing) reading a compressed trace delivers the first requests of the trace, in order, without a fault -/
theorem C88_prefix_partial (T : TraceFormat) (hT : T ∈ Spec.Zstd.formats) (vs : List (Fld → Int)) (hF : T.File vs) (C : Codec) (comp : List Nat)
    (D : Decodes C comp (encodeAll T.L vs)) (hc : comp ≠ []) (p : Params) (h0 : p.start = 0) (hr : RatioOk p.sampler) (inSize outSize : Nat) (hi : 0 < inSize)
    (ho : T.F.item ≤ outSize) (hash : Nat → Nat) (lim : Nat) (hl : (encodeAll T.L vs).length < lim) :
    ∃ zr l, Zstd.setup C inSize outSize T.F comp p = .ok zr ∧ Spec.Zstd.seen hash lim T.obs zr = .ok l ∧ l <+: T.expect hash p vs := by
  obtain ⟨zr, qs, zr', e, _, e1, e2, _⟩ := read_file hT hF D hc h0 hr hi ho hash hl
  refine ⟨zr, _, e, ?_, e2⟩
  unfold Spec.Zstd.seen
  rw [e1]
  rfl

/-- **C88** (`_partial`: if the decoder puts out everything before it takes in the last byte of the file, as zstd does at the end of a frame, or the data fit into the output buffer) reading a compressed
trace delivers what the same options deliver from the uncompressed file, whatever the sizes of the buffers -/
theorem C88_read_partial (T : TraceFormat) (hT : T ∈ Spec.Zstd.formats) (vs : List (Fld → Int)) (hF : T.File vs) (C : Codec) (comp : List Nat)
    (D : Decodes C comp (encodeAll T.L vs)) (hc : comp ≠ []) (p : Params) (h0 : p.start = 0) (hr : RatioOk p.sampler) (inSize outSize : Nat) (hi : 0 < inSize)
    (ho : T.F.item ≤ outSize) (hw : (encodeAll T.L vs).length ≤ outSize ∨ D.Prompt) (hash : Nat → Nat) (lim : Nat) (hl : (encodeAll T.L vs).length < lim) :
    ∃ zr rd, Zstd.setup C inSize outSize T.F comp p = .ok zr ∧ setup T.F (encodeAll T.L vs) p = .ok rd ∧
      Spec.Zstd.seen hash lim T.obs zr = .ok (T.expect hash p vs) ∧ Spec.Zstd.seen hash lim T.obs zr = seen hash T.obs rd := by
  obtain ⟨zr, qs, zr', e, _, e1, _, _, e2⟩ := read_file hT hF D hc h0 hr hi ho hash hl
  obtain ⟨rd, e3, e4⟩ := Reader.C35_all T (mem_formats hT) vs hF p h0 hr hash
  have : Spec.Zstd.seen hash lim T.obs zr = .ok (T.expect hash p vs) := by
    unfold Spec.Zstd.seen
    rw [e1, ← e2 hw]
    rfl
  exact ⟨zr, rd, e, e3, this, by rw [this, e4]⟩

/-- **C88** (`_partial`: as above) the reported number of requests is the number that is delivered -/
theorem C88_count_partial (T : TraceFormat) (hT : T ∈ Spec.Zstd.formats) (vs : List (Fld → Int)) (hF : T.File vs) (C : Codec) (comp : List Nat)
    (D : Decodes C comp (encodeAll T.L vs)) (hc : comp ≠ []) (p : Params) (h0 : p.start = 0) (hr : RatioOk p.sampler) (inSize outSize : Nat) (hi : 0 < inSize)
    (ho : T.F.item ≤ outSize) (hw : (encodeAll T.L vs).length ≤ outSize ∨ D.Prompt) (hash : Nat → Nat) (lim : Nat) (hl : (encodeAll T.L vs).length < lim) :
    ∃ zr, Zstd.setup C inSize outSize T.F comp p = .ok zr ∧ Zstd.numReq hash lim zr = .ok (T.expect hash p vs).length := by
  obtain ⟨zr, qs, zr', e, hs, e1, _, _, e2⟩ := read_file hT hF D hc h0 hr hi ho hash hl
  refine ⟨zr, e, ?_⟩
  have hz : Zstd.clone zr = .ok { zr with off := 0 } := by
    have hl0 : ¬ comp.length = 0 := fun h => hc (List.length_eq_zero_iff.1 h)
    unfold Zstd.setup at e
    rw [if_neg hl0] at e
    injection e with e
    subst e
    unfold Zstd.clone Zstd.setup
    exact (if_neg hl0).trans (by simp only [h0]; rfl)
  have h00 : ({ zr with off := 0 } : ZReader C) = zr := by
    unfold Zstd.setup at e
    split at e
    · cases e
    · injection e with e
      subst e
      rw [h0]
  unfold Zstd.numReq
  rw [hz, Res.bind_ok]
  dsimp only
  rw [h00, e1, Res.bind_ok, ← e2 hw, List.length_map]

/-- **C88** (`_partial`: as above; also no cap, no temporal sampling and the file was read to its end) after `reset_reader` the whole trace is delivered again -/
theorem C88_reset_partial (T : TraceFormat) (hT : T ∈ Spec.Zstd.formats) (vs : List (Fld → Int)) (hF : T.File vs) (C : Codec) (comp : List Nat)
    (D : Decodes C comp (encodeAll T.L vs)) (hc : comp ≠ []) (p : Params) (h0 : p.start = 0) (hr : RatioOk p.sampler) (hn : NotTemporal p.sampler) (hcap : p.cap ≤ 1)
    (inSize outSize : Nat) (hi : 0 < inSize) (ho : T.F.item ≤ outSize) (hw : (encodeAll T.L vs).length ≤ outSize ∨ D.Prompt) (hash : Nat → Nat) (lim : Nat)
    (hl : (encodeAll T.L vs).length < lim) :
    ∃ zr qs zr', Zstd.setup C inSize outSize T.F comp p = .ok zr ∧ Zstd.readAll hash lim lim zr newRequest = .ok (qs, zr') ∧
      Spec.Zstd.seen hash lim T.obs (Zstd.reset zr') = .ok (T.expect hash p vs) := by
  obtain ⟨zr, qs, zr', e, hs, e1, _, e5, e2⟩ := read_file hT hF D hc h0 hr hi ho hash hl
  refine ⟨zr, qs, zr', e, e1, ?_⟩
  have g := good_of_mem (mem_formats hT)
  have hnz : NotTemporal zr.sampler := by
    rw [← hs.sampler]
    unfold fresh
    cases hsm : p.sampler with
    | none => trivial
    | some s => rw [hsm] at hn; cases s with
      | spatial i => trivial
      | temporal a b => exact hn.elim
  obtain ⟨hk, hsm⟩ := Zstd.readAll_kept hash lim zr newRequest _ hnz e1
  have hd := e5 hcap
  have hz : zr.start = 0 := by
    unfold Zstd.setup at e
    split at e
    · cases e
    · injection e with e; subst e; exact h0
  have hs' : Zstd.Sim D outSize p.cap (Zstd.reset zr') (fresh T.F (encodeAll T.L vs) p) := by
    refine ⟨hs.fmt.trans hk.fmt.symm, rfl, ?_, hd.osz, ?_, hs.iz.trans hk.iz.symm, hs.is.trans hk.is.symm, hs.cap.trans hk.cap.symm, rfl, hs.sampler.trans hsm.symm, rfl, ?_, ?_, ?_, ?_,
      hk.cap.trans hs.capc⟩
    · have : (fresh T.F (encodeAll T.L vs) p).off = 0 := h0
      rw [this]
      exact Zstd.reset_inv hc hd hw
    · show zr'.start < _
      rw [hk.start, hz]
      exact List.length_pos_iff.2 hc
    · show ∃ j, _ + j * zr'.fmt.item = _
      rw [hk.fmt]; exact hs.part
    · show 0 < zr'.fmt.item
      rw [hk.fmt]; exact hs.item
    · show zr'.fmt.item ≤ _
      rw [hk.fmt]; exact hs.room
    · show Zstd.Within zr'.fmt
      rw [hk.fmt]; exact hs.within
  have hseen : seen hash T.obs (fresh T.F (encodeAll T.L vs) p) = .ok (T.expect hash p vs) := seen_at g hF (onFile_fresh T vs p h0) hash rfl (sok_fresh hr)
  unfold seen at hseen
  obtain ⟨⟨qs1, rd'⟩, e6, e7⟩ := Res.bind_eq_ok.1 hseen
  injection e7 with e7
  obtain ⟨qs2, zr2, e3, _, _, e8⟩ := Zstd.readAll_sim hash hl _ lim _ _ newRequest qs1 rd' hs' (sok_fresh hr) hl e6
  unfold Spec.Zstd.seen
  rw [e3, e8 hw, Res.bind_ok, e7]

/-! ## two decoders that keep the contract -/

/-- nothing is compressed -/
def stored : Codec := ⟨Unit, (), fun _ inp room => ((), (inp.take room).length, inp.take room)⟩

def storedOk (data : List Nat) : Decodes stored data data where
  At _ k m := k = m
  ready k := k
  init := rfl
  step s k m inp room h hp := by
    subst h
    refine ⟨?_, ?_, (List.take_prefix _ _).trans hp, rfl⟩
    · show (inp.take room).length ≤ _; rw [List.length_take]; omega
    · show (inp.take room).length ≤ _; simp; omega
  flush s k m inp room h _ _ := by subst h; exact Nat.le_refl _
  progress s k m inp room _ _ h1 h2 := by
    have : 0 < inp.length := List.length_pos_iff.2 h1
    show 0 < (inp.take room).length + (inp.take room).length
    rw [List.length_take]; omega
  all := Nat.le_refl _
  again _ _ := rfl

theorem stored_prompt (data : List Nat) : (storedOk data).Prompt := fun _ _ h => h.symm

/-- what is left to be put out -/
def pend (l : List Nat) : Option (List Nat) := if l = [] then none else some l

/-- any byte stands for all of `data` -/
def packed (data : List Nat) : Codec := ⟨Option (List Nat), none, fun s inp room =>
  match s with
  | some l => (pend (l.drop room), 0, l.take room)
  | none => match inp with
    | [] => (none, 0, [])
    | _ :: _ => (pend (data.drop room), 1, data.take room)⟩

theorem pend_nil {l : List Nat} (h : l = []) : pend l = none := if_pos h

def packedOk (data : List Nat) : Decodes (packed data) [0] data where
  At s k m := (s = none ∧ k = 0 ∧ m = 0) ∨ (k = 1 ∧ m ≤ data.length ∧ s = pend (data.drop m))
  ready k := if k = 0 then 0 else data.length
  init := .inl ⟨rfl, rfl, rfl⟩
  step s k m inp room h hp := by
    rcases h with ⟨rfl, rfl, rfl⟩ | ⟨rfl, hm, rfl⟩
    · cases inp with
      | nil => exact ⟨Nat.le_refl _, Nat.zero_le _, List.nil_prefix, .inl ⟨rfl, rfl, rfl⟩⟩
      | cons x l =>
        refine ⟨by show 1 ≤ _; simp, by show (data.take room).length ≤ _; simp; omega, List.take_prefix _ _, .inr ⟨rfl, ?_, ?_⟩⟩
        · show 0 + (data.take room).length ≤ _; simp; omega
        · show pend (data.drop room) = pend (data.drop (0 + (data.take room).length))
          congr 1
          rw [List.length_take, Nat.zero_add]
          by_cases hr : room ≤ data.length
          · rw [Nat.min_eq_left hr]
          · rw [Nat.min_eq_right (by omega), List.drop_length, List.drop_eq_nil_of_le (by omega)]
    · by_cases hd : data.drop m = []
      · have hi : inp = [] := List.prefix_nil.1 hp
        subst hi
        rw [pend_nil hd]
        exact ⟨Nat.le_refl _, Nat.zero_le _, List.nil_prefix, .inr ⟨rfl, hm, (pend_nil hd).symm⟩⟩
      · have hs : pend (data.drop m) = some (data.drop m) := if_neg hd
        rw [hs]
        refine ⟨Nat.zero_le _, by show ((data.drop m).take room).length ≤ _; simp; omega, List.take_prefix _ _, .inr ⟨rfl, ?_, ?_⟩⟩
        · show m + ((data.drop m).take room).length ≤ _
          rw [List.length_take, List.length_drop]; omega
        · show pend ((data.drop m).drop room) = pend (data.drop (m + ((data.drop m).take room).length))
          congr 1
          rw [List.length_take, List.length_drop, List.drop_drop]
          by_cases hr : room ≤ data.length - m
          · rw [Nat.min_eq_left hr]
          · rw [Nat.min_eq_right (by omega), List.drop_eq_nil_of_le (by omega), List.drop_eq_nil_of_le (by omega)]
  flush s k m inp room h hp hf := by
    rcases h with ⟨rfl, rfl, rfl⟩ | ⟨rfl, hm, rfl⟩
    · cases inp with
      | nil => exact Nat.le_refl _
      | cons x l =>
        show data.length ≤ 0 + (data.take room).length
        have : (data.take room).length < room := hf
        clear hf
        rw [List.length_take] at this ⊢
        omega
    · by_cases hd : data.drop m = []
      · have hi : inp = [] := List.prefix_nil.1 hp
        subst hi
        rw [pend_nil hd]
        have := congrArg List.length hd
        rw [List.length_drop, List.length_nil] at this
        show data.length ≤ m + 0
        clear hf
        omega
      · have hs : pend (data.drop m) = some (data.drop m) := if_neg hd
        rw [hs] at hf ⊢
        have : ((data.drop m).take room).length < room := hf
        show data.length ≤ m + ((data.drop m).take room).length
        clear hf
        rw [List.length_take, List.length_drop] at this ⊢
        omega
  progress s k m inp room h hp h1 h2 := by
    rcases h with ⟨rfl, rfl, rfl⟩ | ⟨rfl, hm, rfl⟩
    · cases inp with
      | nil => exact (h1 rfl).elim
      | cons x l => show 0 < 1 + _; omega
    · exact absurd (List.prefix_nil.1 hp) h1
  all := Nat.le_refl _
  again s h := by
    rcases h with ⟨_, h, _⟩ | ⟨_, _, h⟩
    · cases h
    · exact .inl ⟨h.trans (pend_nil (List.drop_length)), rfl, rfl⟩

/-- three requests of the valpin format -/
def three : List (Fld → Int) :=
  [fun f => match f with | .id => 10 | .size => 1 | _ => 0, fun f => match f with | .id => 20 | .size => 1 | _ => 0, fun f => match f with | .id => 30 | .size => 1 | _ => 0]

def valpinT : TraceFormat := ⟨valpin, lValpin, [.id, .size], fun _ => True, fun v => Vals.set v .size 1, never, false⟩

/-- the premises of the theorems are met by a file that is larger than both buffers -/
example : valpinT ∈ Spec.Zstd.formats ∧ valpinT.File three ∧ encodeAll valpinT.L three ≠ [] ∧ (storedOk (encodeAll valpinT.L three)).Prompt ∧
    ∃ zr, Zstd.setup stored 5 9 valpin (encodeAll lValpin three) defaultParams = .ok zr ∧ Spec.Zstd.seen (fun _ => 1) 25 [.id, .size] zr = .ok [[10, 1], [20, 1], [30, 1]] := by
  refine ⟨?_, ?_, by decide, stored_prompt _, _, rfl, ?_⟩
  · simp [Spec.Zstd.formats, formats, valpinT]
  · refine ⟨fun v hv => ?_, by decide⟩
    simp only [three, List.mem_cons, List.not_mem_nil, or_false] at hv
    rcases hv with rfl | rfl | rfl <;> exact ⟨by simp [Fits, fits, valpinT, lValpin], trivial⟩
  · decide +kernel

/-- the condition on the decoder is needed: with one that only does what the documentation of zstd promises the last two of three requests are lost, because the reader does not ask again for output once
the file has been taken in -/
theorem C88_prompt_needed : ∃ zr, Zstd.setup (packed (encodeAll lValpin three)) 100 12 valpin [0] defaultParams = .ok zr ∧
    Spec.Zstd.seen (fun _ => 1) 100 [.id] zr = .ok [[10]] ∧ ¬ (packedOk (encodeAll lValpin three)).Prompt :=
  ⟨_, rfl, by decide +kernel, fun h => absurd (h (pend ((encodeAll lValpin three).drop 12)) 12 (.inr ⟨rfl, by decide, rfl⟩)) (by decide)⟩

/-! ## moving around in a compressed trace -/

/-- **C88** fails if `reset_reader` is called before the end of the trace: what was decompressed or taken from the file already is delivered first -/
theorem C88_reset_fails : ∃ (zr zr1 : ZReader stored) (q1 : Request), Zstd.setup stored 100 100 valpin (encodeAll lValpin three) defaultParams = .ok zr ∧
    Zstd.readOne (fun _ => 1) 100 zr newRequest = .ok (0, zr1, q1) ∧ Spec.Zstd.seen (fun _ => 1) 100 [.id] zr = .ok [[10], [20], [30]] ∧
    Spec.Zstd.seen (fun _ => 1) 100 [.id] (Zstd.reset zr1) = .ok [[20], [30], [10], [20], [30]] :=
  ⟨_, _, _, rfl, rfl, by decide +kernel, by decide +kernel⟩

/-- **C88** fails for `skip_n_req`: it reports that a request was skipped, but all of them are delivered afterwards -/
theorem C88_skip_fails : ∃ zr : ZReader stored, Zstd.setup stored 100 100 valpin (encodeAll lValpin three) defaultParams = .ok zr ∧ (Zstd.skipN zr 1).1 = 1 ∧
    Spec.Zstd.seen (fun _ => 1) 100 [.id] (Zstd.skipN zr 1).2 = .ok [[10], [20], [30]] :=
  ⟨_, rfl, by decide +kernel, by decide +kernel⟩

/-- **C88** fails for `go_back_one_req`: after a request was read it reports that it cannot go back; after a request was skipped it reports success, without an effect on what is delivered -/
theorem C88_back_fails : ∃ (zr zr1 : ZReader stored) (q1 : Request), Zstd.setup stored 100 100 valpin (encodeAll lValpin three) defaultParams = .ok zr ∧
    Zstd.readOne (fun _ => 1) 100 zr newRequest = .ok (0, zr1, q1) ∧ (Zstd.goBackOne zr1).1 = 1 ∧ (Zstd.goBackOne (Zstd.skipN zr1 1).2).1 = 0 ∧
    Spec.Zstd.seen (fun _ => 1) 100 [.id] (Zstd.goBackOne (Zstd.skipN zr1 1).2).2 = .ok [[20], [30]] ∧ Spec.Zstd.seen (fun _ => 1) 100 [.id] (Zstd.skipN zr1 1).2 = .ok [[20], [30]] :=
  ⟨_, _, _, rfl, rfl, by decide +kernel, by decide +kernel, by decide +kernel, by decide +kernel⟩

/-- **C88** fails for `read_last_req`: it delivers the first request -/
theorem C88_last_fails : ∃ zr : ZReader stored, Zstd.setup stored 100 100 valpin (encodeAll lValpin three) defaultParams = .ok zr ∧
    (Zstd.readLast (fun _ => 1) 100 zr newRequest).map (fun r => r.2.vals .id) = .ok 10 :=
  ⟨_, rfl, by decide +kernel⟩

/-- **C88** fails for a corrupt file: once the decoder reports an error, which takes in nothing and puts out nothing, reading never ends -/
theorem C88_corrupt_fails (C : Codec) (bad : C.σ) (hb : ∀ inp room, C.step bad inp room = (bad, 0, [])) (z : Zstd.Z C) (hz : z.zds = bad) (hi : z.inp ≠ []) (n : Nat) (hn : z.out.length < n) :
    ∀ fuel, Zstd.readBytes n fuel z = .error .diverge := by
  intro fuel
  induction fuel with
  | zero => rfl
  | succ f ih =>
    have hd : Zstd.decompress z = (true, z) := by
      unfold Zstd.decompress
      dsimp only
      rw [if_neg hi, if_neg hi, hz, hb]
      cases z
      simp only [List.drop_zero, List.append_nil] at hz ⊢
      rw [hz]
    rw [Zstd.readBytes, if_pos hn, hd, if_pos rfl]
    exact ih

/-- there is such a file: a decoder that rejects every input -/
example : ∃ (C : Codec) (z : Zstd.Z C), z = { Zstd.create C 100 100 [1, 2, 3] with inp := [1, 2, 3], pos := 3 } ∧ (∀ inp room, C.step z.zds inp room = (z.zds, 0, [])) ∧
    ∀ fuel, Zstd.readBytes 8 fuel (Zstd.create C 100 100 [1, 2, 3]) = .error .diverge := by
  refine ⟨⟨Unit, (), fun _ _ _ => ((), 0, [])⟩, _, rfl, fun _ _ => rfl, fun fuel => ?_⟩
  cases fuel with
  | zero => rfl
  | succ f =>
    exact C88_corrupt_fails ⟨Unit, (), fun _ _ _ => ((), 0, [])⟩ () (fun _ _ => rfl) ⟨[1, 2, 3], 3, 100, 100, [1, 2, 3], [], ()⟩ rfl (by simp) 8 (by simp) f

end Verif.Props.Zstd
