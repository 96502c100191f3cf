import Verif.Proof.ReaderDec
/-!
# C35: reading a trace file yields the encoded requests

`Delivers` (Verif/Spec/Reader.lean) says what reading must deliver; one theorem per binary format.
-/

namespace Verif.Props.Reader
open Verif Verif.Reader Verif.Spec.Reader

set_option linter.unusedSimpArgs false

/-- **C35**, format `oracleGeneral` -/
theorem C35_oracleGeneral : Delivers oracleGeneral lOracleGeneral [.time, .id, .size, .next] (fun _ => True)
    (fun v => Vals.set v .next (nextOf (v .next))) zeroSize :=
  delivers_of_decodes (zero := zeroSize) (d := fun b => b) rfl dec_oracleGeneral rfl (by decide) (by decide) (by decide)
    (fun iz fwd y => by cases iz <;> cases fwd <;> simp [oracleGeneral, skipSizeZero, skipValZero, zeroSize, zeroGet, never, noSkip, restrict, opGet, opGets] <;> try rfl)
    (fun y => by simp [zeroSize, restrict])

/-- **C35**, format `oracleGeneralOpNS` -/
theorem C35_oracleGeneralOpNS : Delivers oracleGeneralOpNS lOracleGeneralOpNS [.time, .id, .size, .op, .ns, .next] (fun _ => True)
    (fun v => Vals.set v .next (nextOf (v .next))) zeroSize :=
  delivers_of_decodes (zero := zeroSize) (d := fun b => b) rfl dec_oracleGeneralOpNS rfl (by decide) (by decide) (by decide)
    (fun iz fwd y => by cases iz <;> cases fwd <;> simp [oracleGeneralOpNS, skipSizeZero, skipValZero, zeroSize, zeroGet, never, noSkip, restrict, opGet, opGets] <;> try rfl)
    (fun y => by simp [zeroSize, restrict])

/-- **C35**, format `standardIQI` -/
theorem C35_standardIQI : Delivers standardIQI lIQI [.time, .id, .size] (fun _ => True)
    (fun v => v) never :=
  delivers_of_decodes (zero := never) (d := fun b => b) rfl dec_standardIQI rfl (by decide) (by decide) (by decide)
    (fun iz fwd y => by cases iz <;> cases fwd <;> simp [standardIQI, skipSizeZero, skipValZero, zeroSize, zeroGet, never, noSkip, restrict, opGet, opGets] <;> try rfl)
    (fun y => by simp [never, restrict])

/-- **C35**, format `standardIQIBH` -/
theorem C35_standardIQIBH : Delivers standardIQIBH lIQIBH [.time, .id, .size, .op, .ns] (fun _ => True)
    (fun v => v) never :=
  delivers_of_decodes (zero := never) (d := fun b => b) rfl dec_standardIQIBH rfl (by decide) (by decide) (by decide)
    (fun iz fwd y => by cases iz <;> cases fwd <;> simp [standardIQIBH, skipSizeZero, skipValZero, zeroSize, zeroGet, never, noSkip, restrict, opGet, opGets] <;> try rfl)
    (fun y => by simp [never, restrict])

/-- **C35**, format `akamai` -/
theorem C35_akamai : Delivers akamai lAkamai [.time, .id, .size, .tenant, .bucket, .content] (fun _ => True)
    (fun v => v) zeroSize :=
  delivers_of_decodes (zero := zeroSize) (d := fun b => b) rfl dec_akamai rfl (by decide) (by decide) (by decide)
    (fun iz fwd y => by cases iz <;> cases fwd <;> simp [akamai, skipSizeZero, skipValZero, zeroSize, zeroGet, never, noSkip, restrict, opGet, opGets] <;> try rfl)
    (fun y => by simp [zeroSize, restrict])

/-- **C35**, format `cf1` -/
theorem C35_cf1 : Delivers cf1 lCf1 [.time, .id, .size, .ttl, .age, .host, .content, .ext, .nLevel, .nParam, .method, .colo] (fun v => v .size < 9223372036854775808 ∧ v .age < 2147483648 ∧ v .host < 2147483648 ∧ v .ext < 32768 ∧ v .nLevel < 32768 ∧ v .method < 128)
    (fun v => v) zeroSize :=
  delivers_of_decodes (zero := zeroSize) (d := fun b => b) rfl dec_cf1 rfl (by decide) (by decide) (by decide)
    (fun iz fwd y => by cases iz <;> cases fwd <;> simp [cf1, skipSizeZero, skipValZero, zeroSize, zeroGet, never, noSkip, restrict, opGet, opGets] <;> try rfl)
    (fun y => by simp [zeroSize, restrict])

/-- **C35**, format `twr` -/
theorem C35_twr : Delivers twr lTwr [.time, .id, .size, .keySize, .valSize, .op, .ttl] (fun v => (0 ≤ v .keySize ∧ v .keySize < 1024 ∧ 0 ≤ v .valSize ∧ v .valSize < 4194304 ∧ v .kv = v .keySize * 4194304 + v .valSize) ∧ 0 ≤ v .op ∧ v .op < 256 ∧ 0 ≤ v .ttl ∧ v .ttl < 16777216 ∧ v .opTtl = v .op * 16777216 + v .ttl)
    (fun v => Vals.set v .size (v .keySize + v .valSize)) zeroGet :=
  delivers_of_decodes (zero := zeroGet) (d := fun b => b) rfl dec_twr rfl (by decide) (by decide) (by decide)
    (fun iz fwd y => by cases iz <;> cases fwd <;> simp [twr, skipSizeZero, skipValZero, zeroSize, zeroGet, never, noSkip, restrict, opGet, opGets] <;> try rfl)
    (fun y => by simp [zeroGet, restrict])

/-- **C35**, format `twrNS` -/
theorem C35_twrNS : Delivers twrNS lTwrNS [.time, .id, .size, .keySize, .valSize, .op, .ttl, .ns] (fun v => (0 ≤ v .keySize ∧ v .keySize < 1024 ∧ 0 ≤ v .valSize ∧ v .valSize < 4194304 ∧ v .kv = v .keySize * 4194304 + v .valSize) ∧ 0 ≤ v .op ∧ v .op < 256 ∧ 0 ≤ v .ttl ∧ v .ttl < 16777216 ∧ v .opTtl = v .op * 16777216 + v .ttl)
    (fun v => Vals.set v .size (v .keySize + v .valSize)) zeroGet :=
  delivers_of_decodes (zero := zeroGet) (d := fun b => b) rfl dec_twrNS rfl (by decide) (by decide) (by decide)
    (fun iz fwd y => by cases iz <;> cases fwd <;> simp [twrNS, skipSizeZero, skipValZero, zeroSize, zeroGet, never, noSkip, restrict, opGet, opGets] <;> try rfl)
    (fun y => by simp [zeroGet, restrict])

/-- **C35**, format `wiki2016u` -/
theorem C35_wiki2016u : Delivers wiki2016u lWiki16u [.time, .id, .size, .content] (fun _ => True)
    (fun v => Vals.set v .time 0) zeroSize :=
  delivers_of_decodes (zero := zeroSize) (d := fun _ => true) rfl dec_wiki2016u rfl (by decide) (by decide) (by decide)
    (fun iz fwd y => by cases iz <;> cases fwd <;> simp [wiki2016u, skipSizeZero, skipValZero, zeroSize, zeroGet, never, noSkip, restrict, opGet, opGets] <;> try rfl)
    (fun y => by simp [zeroSize, restrict])

/-- **C35**, format `wiki2019u` -/
theorem C35_wiki2019u : Delivers wiki2019u lWiki19u [.time, .id, .size, .content] (fun _ => True)
    (fun v => v) zeroSize :=
  delivers_of_decodes (zero := zeroSize) (d := fun _ => true) rfl dec_wiki2019u rfl (by decide) (by decide) (by decide)
    (fun iz fwd y => by cases iz <;> cases fwd <;> simp [wiki2019u, skipSizeZero, skipValZero, zeroSize, zeroGet, never, noSkip, restrict, opGet, opGets] <;> try rfl)
    (fun y => by simp [zeroSize, restrict])

/-- **C35**, format `wiki2019t` -/
theorem C35_wiki2019t : Delivers wiki2019t lIQI [.time, .id, .size] (fun _ => True)
    (fun v => v) zeroSize :=
  delivers_of_decodes (zero := zeroSize) (d := fun b => b) rfl dec_wiki2019t rfl (by decide) (by decide) (by decide)
    (fun iz fwd y => by cases iz <;> cases fwd <;> simp [wiki2019t, skipSizeZero, skipValZero, zeroSize, zeroGet, never, noSkip, restrict, opGet, opGets] <;> try rfl)
    (fun y => by simp [zeroSize, restrict])

/-- **C35**, format `oracleAkamai` -/
theorem C35_oracleAkamai : Delivers oracleAkamai lOracleAkamai [.time, .id, .size, .tenant, .bucket, .content, .next] (fun _ => True)
    (fun v => Vals.set (Vals.set (Vals.set (Vals.set v .next (nextOf (v .next))) .tenant (v .tenant - 1)) .bucket (v .bucket - 1)) .content (v .content - 1)) zeroSize :=
  delivers_of_decodes (zero := zeroSize) (d := fun b => b) rfl dec_oracleAkamai rfl (by decide) (by decide) (by decide)
    (fun iz fwd y => by cases iz <;> cases fwd <;> simp [oracleAkamai, skipSizeZero, skipValZero, zeroSize, zeroGet, never, noSkip, restrict, opGet, opGets] <;> try rfl)
    (fun y => by simp [zeroSize, restrict])

/-- **C35**, format `oracleCF1` -/
theorem C35_oracleCF1 : Delivers oracleCF1 lOracleCF1 [.time, .id, .size, .ttl, .age, .host, .next, .content, .ext, .nLevel, .nParam, .method, .colo] (fun v => v .size < 9223372036854775808 ∧ v .age < 2147483648 ∧ v .host < 2147483648 ∧ v .ext < 32768 ∧ v .nLevel < 32768 ∧ v .method < 128)
    (fun v => Vals.set v .next (nextOf (v .next))) zeroSize :=
  delivers_of_decodes (zero := zeroSize) (d := fun b => b) rfl dec_oracleCF1 rfl (by decide) (by decide) (by decide)
    (fun iz fwd y => by cases iz <;> cases fwd <;> simp [oracleCF1, skipSizeZero, skipValZero, zeroSize, zeroGet, never, noSkip, restrict, opGet, opGets] <;> try rfl)
    (fun y => by simp [zeroSize, restrict])

/-- **C35**, format `oracleSysTwrNS` -/
theorem C35_oracleSysTwrNS : Delivers oracleSysTwrNS lOracleSysTwrNS [.time, .id, .size, .keySize, .valSize, .op, .ns, .ttl, .next] (fun _ => True)
    (fun v => Vals.set (Vals.set v .next (nextOf (v .next))) .size (v .keySize + v .valSize)) zeroGet :=
  delivers_of_decodes (zero := zeroGet) (d := fun b => b) rfl dec_oracleSysTwrNS rfl (by decide) (by decide) (by decide)
    (fun iz fwd y => by cases iz <;> cases fwd <;> simp [oracleSysTwrNS, skipSizeZero, skipValZero, zeroSize, zeroGet, never, noSkip, restrict, opGet, opGets] <;> try rfl)
    (fun y => by simp [zeroGet, restrict])

/-- **C35**, format `oracleWiki2016u` -/
theorem C35_oracleWiki2016u : Delivers oracleWiki2016u lOracleWiki16u [.time, .id, .size, .content, .next] (fun _ => True)
    (fun v => Vals.set (Vals.set v .next (nextOf (v .next))) .time 0) zeroSize :=
  delivers_of_decodes (zero := zeroSize) (d := fun b => b) rfl dec_oracleWiki2016u rfl (by decide) (by decide) (by decide)
    (fun iz fwd y => by cases iz <;> cases fwd <;> simp [oracleWiki2016u, skipSizeZero, skipValZero, zeroSize, zeroGet, never, noSkip, restrict, opGet, opGets] <;> try rfl)
    (fun y => by simp [zeroSize, restrict])

/-- **C35**, format `oracleWiki2019u` -/
theorem C35_oracleWiki2019u : Delivers oracleWiki2019u lOracleWiki19u [.time, .id, .size, .content, .next] (fun _ => True)
    (fun v => Vals.set v .next (nextOf (v .next))) zeroSize :=
  delivers_of_decodes (zero := zeroSize) (d := fun b => b) rfl dec_oracleWiki2019u rfl (by decide) (by decide) (by decide)
    (fun iz fwd y => by cases iz <;> cases fwd <;> simp [oracleWiki2019u, skipSizeZero, skipValZero, zeroSize, zeroGet, never, noSkip, restrict, opGet, opGets] <;> try rfl)
    (fun y => by simp [zeroSize, restrict])

/-- **C35**, format `valpin` -/
theorem C35_valpin : Delivers valpin lValpin [.id, .size] (fun _ => True)
    (fun v => Vals.set v .size 1) never :=
  delivers_of_decodes (zero := never) (d := fun b => b) rfl dec_valpin rfl (by decide) (by decide) (by decide)
    (fun iz fwd y => by cases iz <;> cases fwd <;> simp [valpin, skipSizeZero, skipValZero, zeroSize, zeroGet, never, noSkip, restrict, opGet, opGets] <;> try rfl)
    (fun y => by simp [never, restrict])

/-- **C35**, format `vscsi1` -/
theorem C35_vscsi1 : Delivers vscsi1 lVscsi1 [.time, .id, .size] (fun _ => True)
    (fun v => Vals.set v .time (v .ts / 1000000)) never :=
  delivers_of_decodes (zero := never) (d := fun b => b) rfl dec_vscsi1 rfl (by decide) (by decide) (by decide)
    (fun iz fwd y => by cases iz <;> cases fwd <;> simp [vscsi1, skipSizeZero, skipValZero, zeroSize, zeroGet, never, noSkip, restrict, opGet, opGets] <;> try rfl)
    (fun y => by simp [never, restrict])

/-- **C35**, format `vscsi2` -/
theorem C35_vscsi2 : Delivers vscsi2 lVscsi2 [.time, .id, .size] (fun _ => True)
    (fun v => Vals.set v .time (v .ts / 1000000)) never :=
  delivers_of_decodes (zero := never) (d := fun b => b) rfl dec_vscsi2 rfl (by decide) (by decide) (by decide)
    (fun iz fwd y => by cases iz <;> cases fwd <;> simp [vscsi2, skipSizeZero, skipValZero, zeroSize, zeroGet, never, noSkip, restrict, opGet, opGets] <;> try rfl)
    (fun y => by simp [never, restrict])
/-! ## a concrete trace -/

/-- three requests, the second for an object of size zero -/
def demo : List (Fld → Int) :=
  [fun f => match f with | .time => 5 | .id => 77 | .size => 300 | .next => -1 | _ => 0,
   fun f => match f with | .time => 6 | .id => 18446744073709551615 | .size => 0 | .next => 9 | _ => 0,
   fun f => match f with | .time => 4294967295 | .id => 77 | .size => 4294967295 | .next => 12 | _ => 0]

example : (∀ v ∈ demo, Fits lOracleGeneral v ∧ True) ∧ demo ≠ [] ∧ (encodeAll lOracleGeneral demo).length = 72 := by
  refine ⟨?_, by decide, by decide⟩
  intro v hv
  simp only [demo, List.mem_cons, List.not_mem_nil, or_false] at hv
  rcases hv with rfl | rfl | rfl <;> exact ⟨by simp [Fits, fits, lOracleGeneral], trivial⟩

/-- with the default options the zero-size request is left out and "never again" is INT64_MAX -/
example (hash : Nat → Nat) : (expected hash (fun v => Vals.set v .next (nextOf (v .next))) zeroSize defaultParams demo).map
    (fun v => [.time, .id, .size, .next].map v) = [[5, 77, 300, 9223372036854775807], [4294967295, 77, 4294967295, 12]] := by
  simp [expected, demo, defaultParams, zeroSize, nextOf, Vals.set, capped, sampled, shownSize]

/-! ## formats that do not deliver what was written -/

/-- **C35** (`_partial`: only sizes below 2^32) `standardIQQ`: the record has eight bytes of size, the reader takes four -/
theorem C35_standardIQQ_partial : Delivers standardIQQ lIQQ [.time, .id, .size] (fun v => v .size < 4294967296) (fun v => v) never :=
  delivers_of_decodes (d := fun b => b) (zero := never) rfl dec_standardIQQ rfl (by decide) (by decide) (by decide)
    (fun iz fwd y => by simp [standardIQQ, never, noSkip])
    (fun y => by simp [never])

/-- a request for an object of 2^32 bytes -/
def bigReq : Fld → Int := fun f => match f with | .time => 1 | .id => 2 | .size => 4294967296 | _ => 0

/-- **C35** fails for `standardIQQ`: the size 2^32 is read as 0 -/
theorem C35_standardIQQ_fails : ¬ Delivers standardIQQ lIQQ [.time, .id, .size] (fun v => v .size < 9223372036854775808) (fun v => v) never := by
  intro h
  obtain ⟨rd, qs, rd', e1, e2, _, e4⟩ := h [bigReq] (by simp [Fits, fits, lIQQ, bigReq]) (by simp) (fun _ => 1) defaultParams rfl trivial
  have h1 : setup standardIQQ (encodeAll lIQQ [bigReq]) defaultParams = .ok ⟨standardIQQ, encodeAll lIQQ [bigReq], 0, 0, true, false, -1, 0, true, none, defaultParams⟩ := rfl
  rw [h1] at e1
  injection e1 with e1
  subst e1
  have h2 : (readAll (fun _ => 1) ((encodeAll lIQQ [bigReq]).length + 1) ⟨standardIQQ, encodeAll lIQQ [bigReq], 0, 0, true, false, -1, 0, true, none, defaultParams⟩
      newRequest).map (fun r => r.1.map (fun q => [Fld.time, .id, .size].map q.vals)) = .ok [[1, 2, 0]] := by decide +kernel
  simp only [e2, Except.map] at h2
  injection h2 with h2
  rw [h2] at e4
  revert e4
  decide +kernel

/-- **C35** (`_partial`: ids are not the ones written) `standardIII`: the reader takes eight bytes for the four-byte id, so that the
size is added in the upper half -/
theorem C35_standardIII_partial : Delivers standardIII lIII [.time, .id, .size] (fun _ => True)
    (fun v => Vals.set v .id (v .id + 4294967296 * v .size)) never :=
  delivers_of_decodes (d := fun b => b) (zero := never) rfl dec_standardIII rfl (by decide) (by decide) (by decide)
    (fun iz fwd y => by simp [standardIII, never, noSkip])
    (fun y => by simp [never])

def smallReq : Fld → Int := fun f => match f with | .time => 1 | .id => 2 | .size => 3 | _ => 0

/-- **C35** fails for `standardIII`: id 2 with size 3 is read as id 3 * 2^32 + 2 -/
theorem C35_standardIII_fails : ¬ Delivers standardIII lIII [.time, .id, .size] (fun _ => True) (fun v => v) never := by
  intro h
  obtain ⟨rd, qs, rd', e1, e2, _, e4⟩ := h [smallReq] (by simp [Fits, fits, lIII, smallReq]) (by simp) (fun _ => 1) defaultParams rfl trivial
  obtain ⟨_, _, _, f1, f2, _, f4⟩ := C35_standardIII_partial [smallReq] (by simp [Fits, fits, lIII, smallReq]) (by simp) (fun _ => 1) defaultParams rfl trivial
  rw [e1] at f1
  injection f1 with f1
  subst f1
  rw [e2] at f2
  injection f2 with f2
  injection f2 with f2 f3
  subst f2
  rw [e4] at f4
  simp [expected, smallReq, defaultParams, never, Vals.set, capped, sampled, shownSize] at f4

/-- a request structure last used for a get of an empty value -/
def usedRequest : Request := ⟨fun f => match f with | .op => 1 | _ => 0, 0, true⟩

/-- **C35** fails for `oracleSimTwrNS` when the request structure was used before: the reader decides by `op` and `val_size`, which
it does not read from the file, and takes a file with one request for empty -/
theorem C35_oracleSimTwrNS_fails : ∃ rd, setup oracleSimTwrNS (encodeAll lOracleSimTwrNS [smallReq]) defaultParams = .ok rd ∧
    (readOne (fun _ => 1) rd usedRequest).map (fun r => (r.1, r.2.2.valid)) = .ok (1, false) :=
  ⟨_, rfl, by decide +kernel⟩

/-- **C35** (`_partial`: for a request structure fresh from `new_request` only) `oracleSimTwrNS`, one record -/
theorem C35_oracleSimTwrNS_partial (v : Fld → Int) (h : Fits lOracleSimTwrNS v) (hash : Nat → Nat) :
    ∃ rd rd' q', setup oracleSimTwrNS (encode lOracleSimTwrNS v) defaultParams = .ok rd ∧ readOne hash rd newRequest = .ok (0, rd', q') ∧
      q'.vals .time = v .time ∧ q'.vals .id = v .id ∧ q'.vals .size = v .size ∧ q'.vals .ttl = v .ttl ∧ q'.vals .ns = v .ns ∧
      q'.vals .next = nextOf (v .next) :=
  simTwrNS_one v h hash

end Verif.Props.Reader
