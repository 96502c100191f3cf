import Verif.Proof.BlockConv
/-!
# C114: converting block traces from text
-/

namespace Verif.Props
open Verif Verif.Cli Verif.Spec.Block Verif.BlockConv
set_option maxRecDepth 20000

/-- C114 for Alibaba traces: every line becomes one record, in order, with the seconds since the first, the size and, if asked for, operation and device. The object is the sum of offset and device.
With `per`, every device with at least as many operations as the buffer holds gets a file with exactly its records. Missing: an id that tells the blocks of different devices apart (`C114_collision_fails_BlockConv`);
the devices with fewer operations (`C114_smallDevice_fails_BlockConv`); times that go back before the first. -/
theorem C114_alibaba_BlockConv_partial (ext per : Bool) (B t0 : Nat) (hB : 0 < B) (os : List BlockOp) (hf : ∀ o ∈ os, AlibabaFits o) (ht : From 1000000 t0 os) :
    ∃ files, convert parseAlibaba ext per B (os.map alibabaLine) = .ok (os.map (record 1000000 1 ext t0), files) ∧
      ∀ n, files n = if per = false ∨ (os.filter fun o => o.dev = n).length < B then none else some ((os.filter fun o => o.dev = n).map (record 1000000 1 ext t0)) :=
  convert_ok hB os (fun o ho => ⟨alibaba_ok (hf o ho), (hf o ho).2.2.2.1, (hf o ho).1⟩) ht

/-- C114 for Tencent block traces: the same, with times in seconds and sizes in sectors of 512 bytes. Missing also: requests of 2 GiB and more (`C114_largeRequest_fails_BlockConv`). -/
theorem C114_tencent_BlockConv_partial (ext per : Bool) (B t0 : Nat) (hB : 0 < B) (os : List BlockOp) (hf : ∀ o ∈ os, TencentFits o) (ht : From 1 t0 os) :
    ∃ files, convert parseTencent ext per B (os.map tencentLine) = .ok (os.map (record 1 512 ext t0), files) ∧
      ∀ n, files n = if per = false ∨ (os.filter fun o => o.dev = n).length < B then none else some ((os.filter fun o => o.dev = n).map (record 1 512 ext t0)) :=
  convert_ok hB os (fun o ho => ⟨tencent_ok (hf o ho), by
    have := (hf o ho).2.2.2
    simp only [u32, Nat.div_one]
    omega, (hf o ho).1⟩) ht

/-- C114: as long as offsets are multiples of a block size larger than all device numbers, two records of the converted trace carry the same object exactly if they are about the same block of the same device. -/
theorem C114_sameObject_BlockConv_partial (block t0 : Nat) (ext per : Bool) (os : List BlockOp) (hf : ∀ o ∈ os, AlibabaFits o) (ht : From 1000000 t0 os) (hb : ∀ o ∈ os, block ∣ o.off ∧ o.dev < block)
    (recs : List Out) (files : Nat → Option (List Out)) (hc : convert parseAlibaba ext per 200000 (os.map alibabaLine) = .ok (recs, files)) (i j : Nat) (a b : BlockOp) (ra rb : Out)
    (ha : os[i]? = some a) (hb' : os[j]? = some b) (hra : recs[i]? = some ra) (hrb : recs[j]? = some rb) : ra.id = rb.id ↔ (a.dev = b.dev ∧ a.off = b.off) := by
  obtain ⟨f, e, _⟩ := C114_alibaba_BlockConv_partial ext per 200000 t0 (by decide) os hf ht
  rw [hc] at e
  cases e
  rw [List.getElem?_map, ha] at hra
  rw [List.getElem?_map, hb'] at hrb
  cases hra
  cases hrb
  obtain ⟨⟨x, hx⟩, ha2⟩ := hb a (List.mem_of_getElem? ha)
  obtain ⟨⟨y, hy⟩, hb2⟩ := hb b (List.mem_of_getElem? hb')
  show a.off + a.dev = b.off + b.dev ↔ _
  constructor
  · intro h
    have hm := congrArg (· % block) h
    simp only [hx, hy, Nat.mul_add_mod, Nat.mod_eq_of_lt ha2, Nat.mod_eq_of_lt hb2] at hm
    exact ⟨hm, by omega⟩
  · rintro ⟨h1, h2⟩
    rw [h1, h2]

/-- four operations on two devices -/
def blockDemo : List BlockOp := [⟨3, false, 8192, 4096, 1577808000000046⟩, ⟨5, true, 8192, 512, 1577808000999999⟩, ⟨3, true, 12288, 4096, 1577808002000001⟩, ⟨3, false, 8192, 4096, 1577808061000001⟩]

example : (∀ o ∈ blockDemo, AlibabaFits o) ∧ From 1000000 1577808000 blockDemo ∧ (∀ o ∈ blockDemo, 4096 ∣ o.off ∧ o.dev < 4096) ∧
    blockDemo.map (record 1000000 1 true 1577808000) = [⟨0, 8195, 4096, some (1, 3)⟩, ⟨0, 8197, 512, some (3, 5)⟩, ⟨2, 12291, 4096, some (3, 3)⟩, ⟨61, 8195, 4096, some (1, 3)⟩] := by
  unfold AlibabaFits From
  refine ⟨by decide, ⟨fun o ho => ?_, by decide⟩, by decide, by decide⟩
  cases ho
  decide

/-- two devices, on each an operation on another block, in sectors and aligned to 4 KiB -/
def collideDemo : List BlockOp := [⟨1576, false, 8, 8, 1538323199⟩, ⟨1584, true, 0, 8, 1538323200⟩]

theorem collide_fits : (∀ o ∈ collideDemo, TencentFits o) ∧ From 1 1538323199 collideDemo := by
  unfold TencentFits From
  refine ⟨by decide, fun o ho => ?_, by decide⟩
  cases ho
  decide

/-- C114 fails for the identity of objects: sector 8 of device 1576 and sector 0 of device 1584 become the same object, as offset and device are added. -/
theorem C114_collision_fails_BlockConv : ∃ a b : BlockOp, a.dev ≠ b.dev ∧ a.off ≠ b.off ∧ 8 ∣ a.off ∧ 8 ∣ b.off ∧
    (convert parseTencent false false 200000 ([a, b].map tencentLine)).map (fun r => r.1.map Out.id) = .ok [1584, 1584] := by
  refine ⟨⟨1576, false, 8, 8, 1538323199⟩, ⟨1584, true, 0, 8, 1538323200⟩, by decide, by decide, by decide, by decide, ?_⟩
  obtain ⟨f, e, _⟩ := C114_tencent_BlockConv_partial false false 200000 1538323199 (by decide) collideDemo collide_fits.1 collide_fits.2
  unfold collideDemo at e
  rw [e]
  rfl

/-- C114 fails for the devices with fewer operations than the buffer holds (200000): they get no file, without a message. -/
theorem C114_smallDevice_fails_BlockConv (ext : Bool) (t0 : Nat) (os : List BlockOp) (hf : ∀ o ∈ os, AlibabaFits o) (ht : From 1000000 t0 os) (hl : os.length < 200000) :
    ∃ recs files, convert parseAlibaba ext true 200000 (os.map alibabaLine) = .ok (recs, files) ∧ ∀ n, files n = none := by
  obtain ⟨f, e, h⟩ := C114_alibaba_BlockConv_partial ext true 200000 t0 (by decide) os hf ht
  refine ⟨_, f, e, fun n => ?_⟩
  rw [h n, if_pos (.inr (Nat.lt_of_le_of_lt (List.length_filter_le _ _) hl))]

/-- C114 fails for a Tencent request of 2 GiB: the size in bytes overflows an `int`. -/
theorem C114_largeRequest_fails_BlockConv : parseTencent (tencentLine ⟨1576, false, 8, 4194304, 1538323199⟩) = .error .overflow := by
  unfold parseTencent tencentLine
  have hc : (if false = true then 49 else 48) ≠ 44 := by decide
  simp only [tok_dec, tok_char _ hc, tok_last, bind, Except.bind, atoi_dec (show 4194304 < 2 ^ 31 by decide)]
  rfl

/-- C114 fails when the last argument is left out: the check asks for three arguments, but the fourth is used. -/
theorem C114_threeArguments_fails_BlockConv (a b c : Str) : perArg [a, b, c] = .error .nullDeref := rfl

end Verif.Props
