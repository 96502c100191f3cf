import Verif.Proof.WriteAmp
import Verif.Props.Earned
import Verif.Props.Cluster
/-!
# C106: flash write amplification

The tool of the SOSP'23 experiments that compares the bytes written to a cache with the bytes of the distinct objects of a trace.
-/

namespace Verif.Props
open Verif Verif.Spec Verif.WriteAmp

variable {σ : Type}

/-- The tool reports the requests and bytes that missed over all requests and bytes, and the bytes that missed over the bytes of the first request for each object. -/
theorem C106_report_WriteAmp (A : Algo σ) (s : σ) (trace : List Req) (hits : List Bool) (s' : σ) (h : A.gets s trace = .ok (hits, s')) :
    calWriteAmp A s trace = .ok ⟨((missed trace hits).length, trace.length), (volume (missed trace hits), volume trace), (volume (missed trace hits), volume (firstReqs trace))⟩ := by
  obtain ⟨seen, c, h1, h2⟩ := inv_loop trace s hits s' [] [] [] zero inv_zero h
  rw [List.nil_append, List.nil_append] at h2
  unfold calWriteAmp
  rw [h1, Res.bind_ok, ← h2.req, ← h2.byte, ← h2.uniqByte, ← h2.miss, ← h2.missByte]

/-- When the requests for an object agree on its size, the bytes of the first requests are the bytes of the distinct objects. -/
theorem C106_distinctBytes_WriteAmp (A : Algo σ) (s : σ) (trace : List Req) (sz : Nat → Nat) (hsz : ∀ r ∈ trace, r.size = sz r.id) (rep : Report) (h : calWriteAmp A s trace = .ok rep) :
    rep.writeAmp.2 = ∑ x ∈ (trace.map Req.id).toFinset, sz x := by
  have h0 := h
  unfold calWriteAmp at h
  obtain ⟨⟨c, s'⟩, h1, _⟩ := Res.bind_eq_ok.1 h
  obtain ⟨hits, h2⟩ := loop_gets trace s [] zero _ h1
  rw [C106_report_WriteAmp A s trace hits _ h2] at h0
  cases h0
  exact firstReqs_bytes sz trace hsz

/-- In a cache whose first request for each object misses, the misses are at least as many as the objects, and the bytes that missed at least those of the first requests: the write amplification is at
least one. -/
theorem C106_atLeastOne_WriteAmp (A : Algo σ) (s : σ) (ok : Req → Prop) (hf : FirstMisses A s ok) (trace : List Req) (hok : ∀ r ∈ trace, ok r) (rep : Report) (h : calWriteAmp A s trace = .ok rep) :
    distinct (trace.map Req.id) ≤ rep.missRatio.1 ∧ rep.writeAmp.2 ≤ rep.writeAmp.1 := by
  have h0 := h
  unfold calWriteAmp at h
  obtain ⟨⟨c, s'⟩, h1, _⟩ := Res.bind_eq_ok.1 h
  obtain ⟨hits, h2⟩ := loop_gets trace s [] zero _ h1
  rw [C106_report_WriteAmp A s trace hits _ h2] at h0
  cases h0
  obtain ⟨_, c', _, h3⟩ := inv_loop trace s hits s' [] [] [] zero inv_zero h2
  have hsub := firstReqs_missed trace hits (by simpa using h3.len) (hf trace hits s' hok h2)
  exact ⟨by rw [← firstReqs_distinct]; exact hsub.length_le, volume_sub hsub⟩

/-- The tool finishes on a FIFO cache, for every trace, with a write amplification of at least one. -/
theorem C106_atLeastOne_FIFO (cs md : Nat) (adm : Adm) (trace : List Req) (hok : ∀ r ∈ trace, SizeOk md r) :
    ∃ rep, calWriteAmp FIFO.algo (FIFO.init cs md adm) trace = .ok rep ∧ distinct (trace.map Req.id) ≤ rep.missRatio.1 ∧ rep.writeAmp.2 ≤ rep.writeAmp.1 := by
  have hoks : ∀ op ∈ trace.map Op.get, Calls {} (SizeOk md) op := fun op h => by
    obtain ⟨r, hr, rfl⟩ := List.mem_map.1 h
    exact hok r hr
  obtain ⟨out, s, h1, _⟩ := C13_fifo_FIFO cs md adm _ hoks
  rw [Reaches, run_gets] at h1
  have h2 := C106_report_WriteAmp _ _ trace out s h1
  exact ⟨_, h2, C106_atLeastOne_WriteAmp _ _ _ (C105_firstMiss_FIFO cs md adm) trace hok _ h2⟩

theorem writes_FIFO (cs : Nat) (hcs : cs < 2 ^ 32) : ∀ (post pre : List Req) (out : List Bool) s (hits : List Bool) s', FIFO.algo.gets (FIFO.init cs 0 .none) pre = .ok (out, s) →
    FIFO.algo.gets s post = .ok (hits, s') → (∀ r ∈ post, r.size ≤ cs) → Writes FIFO.algo FIFO_cached s post (volume (missed post hits))
  | [], pre, out, s, hits, s', hp, hg, hs => by
    simp only [Algo.gets, Except.ok.injEq, Prod.mk.injEq] at hg
    rw [← hg.1]
    exact .nil s
  | r :: post, pre, out, s, hits, s', hp, hg, hs => by
    simp only [Algo.gets] at hg
    obtain ⟨⟨b, s1⟩, h1, hg⟩ := Res.bind_eq_ok.1 hg
    obtain ⟨⟨bs, s2⟩, h2, hg⟩ := Res.bind_eq_ok.1 hg
    simp only [Except.ok.injEq, Prod.mk.injEq] at hg
    obtain ⟨rfl, rfl⟩ := hg
    have hp' : FIFO.algo.gets (FIFO.init cs 0 .none) (pre ++ [r]) = .ok (out ++ [b], s1) := by
      rw [← run_gets] at hp ⊢
      rw [List.map_append, run_append, hp, Res.bind_ok]
      simp [Algo.run, Algo.step, h1, Res.bind_ok]
    have ih := writes_FIFO cs hcs post (pre ++ [r]) (out ++ [b]) s1 bs s2 hp' h2 fun q hq => hs q (List.mem_cons_of_mem _ hq)
    have hsz := hs r List.mem_cons_self
    have hok : ∀ op ∈ pre.map Op.get, Calls {} (SizeOk 0) op := fun op h => by
      obtain ⟨r, _, rfl⟩ := List.mem_map.1 h
      show r.size % u32 + 0 < u32
      have := Nat.mod_lt r.size (show 0 < u32 by decide)
      omega
    have hokr : Calls {} (SizeOk 0) (.get r) := by
      show r.size % u32 + 0 < u32
      have := Nat.mod_lt r.size (show 0 < u32 by decide)
      omega
    have hre : Reaches FIFO.algo (FIFO.init cs 0 .none) (pre.map Op.get) out s := by rw [Reaches, run_gets]; exact hp
    obtain ⟨t, ht⟩ := (C03_hitIffCached_FIFO cs 0 .none _ out s hok hre).2.2 r hokr
    have hb : b = decide (r.id ∈ (FIFO_cached s).ids) := by rw [h1] at ht; exact congrArg Prod.fst (Except.ok.inj ht)
    cases b with
    | true => exact .old s r true s1 post _ h1 (.inl (by simpa using hb.symm)) ih
    | false =>
      have hni : r.id ∉ (FIFO_cached s).ids := by simpa using hb.symm
      have hi := (FIFO.strong cs 0).reach (QInv.init cs 0 .none) hok hre
      obtain ⟨out', s'', g1, g2⟩ := C13_fifo_FIFO cs 0 .none _ hok
      have e : s'' = s := by unfold Reaches at hre g1; rw [hre] at g1; cases g1; rfl
      subst e
      have hadm : admitsBase s''.base r = true := by
        have ha := trun_none fifo cs 0 (pre.map Op.get) ⟨[], .none⟩ rfl
        rw [g2] at ha
        simp only at ha
        have h5 := (FIFO.strong cs 0).csz hi
        have h6 := (FIFO.strong cs 0).mdz hi
        have h5' : s''.base.cacheSize = cs := h5
        have h6' : s''.base.objMd = 0 := h6
        simp [admitsBase, ha, h5', h6', Adm.admit, hsz]
      obtain ⟨s3, k1, k2⟩ := C05_admittedMissCached_FIFO cs 0 .none _ out s'' hok hre r hokr hni hadm
      have e3 : s3 = s1 := by rw [h1] at k1; cases k1; rfl
      subst e3
      rw [Nat.mod_eq_of_lt (show r.size < u32 by have : u32 = 2 ^ 32 := rfl; omega)] at k2
      have e4 : volume (missed (r :: post) (false :: bs)) = r.size + volume (missed post bs) := by simp [missed, volume]
      rw [e4]
      exact .new s'' r false s3 post _ h1 hni k2 ih

/-- When every object fits into a FIFO cache, the bytes the tool counts as written are the bytes that entered the cache. -/
theorem C106_written_FIFO_partial (cs : Nat) (hcs : cs < 2 ^ 32) (trace : List Req) (hs : ∀ r ∈ trace, r.size ≤ cs) :
    ∃ rep, calWriteAmp FIFO.algo (FIFO.init cs 0 .none) trace = .ok rep ∧ Writes FIFO.algo FIFO_cached (FIFO.init cs 0 .none) trace rep.writeAmp.1 := by
  have hoks : ∀ op ∈ trace.map Op.get, Calls {} (SizeOk 0) op := fun op h => by
    obtain ⟨r, hr, rfl⟩ := List.mem_map.1 h
    show r.size % u32 + 0 < u32
    have := Nat.mod_lt r.size (show 0 < u32 by decide)
    omega
  obtain ⟨out, s, h1, _⟩ := C13_fifo_FIFO cs 0 .none _ hoks
  rw [Reaches, run_gets] at h1
  exact ⟨_, C106_report_WriteAmp _ _ trace out s h1, writes_FIFO cs hcs trace [] [] _ out s rfl h1 hs⟩

/-- An object of 4 bytes and one of 3 in a cache of 5, asked for in turn, and then the second once more: three misses, 11 bytes written for 7 bytes of objects. -/
example : calWriteAmp FIFO.algo (FIFO.init 5 0 .none) [⟨1, 4, -2⟩, ⟨2, 3, -2⟩, ⟨1, 4, -2⟩, ⟨1, 4, -2⟩] = .ok ⟨(3, 4), (11, 15), (11, 7)⟩ := by decide +kernel

/-- An object larger than the cache never enters it, but is counted as written each time. -/
theorem C106_tooLarge_fails_WriteAmp : ∃ (trace : List Req) (rep : Report), calWriteAmp FIFO.algo (FIFO.init 5 0 .none) trace = .ok rep ∧ rep.writeAmp = (12, 6) ∧
    Writes FIFO.algo FIFO_cached (FIFO.init 5 0 .none) trace 0 := by
  refine ⟨[⟨1, 6, -2⟩, ⟨1, 6, -2⟩], ⟨(2, 2), (12, 12), (12, 6)⟩, by decide +kernel, rfl, ?_⟩
  exact .old _ _ false _ _ _ (res_ok (FIFO.init 5 0 .none) (by decide +kernel)) (.inr (by decide +kernel)) (.old _ _ false _ _ _ (res_ok (FIFO.init 5 0 .none) (by decide +kernel)) (.inr (by decide +kernel)) (.nil _))

end Verif.Props
