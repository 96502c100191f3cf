import Verif.Proof.ReaderDec
/-!
# Moving around in a trace
-/

namespace Verif.Reader
open Verif Verif.Spec.Reader

set_option linter.unusedSimpArgs false

/-- what the proofs use about a format -/
structure Good (T : TraceFormat) : Prop where
  dec : Decodes T.F T.L T.obs T.ok T.mean
  item : T.F.item = size T.L
  pos : 0 < size T.L
  id : .id ∈ T.obs
  sz : .size ∈ T.obs
  skip : ∀ iz fwd y, T.F.skip iz fwd y = ((fwd || T.both) && iz && T.zero (restrict T.obs y))
  zero : ∀ y, T.zero (restrict T.obs y) = T.zero y

theorem good_of_mem {T : TraceFormat} (h : T ∈ formats) : Good T := by
  simp only [formats, List.mem_cons, List.not_mem_nil, or_false] at h
  rcases h with rfl | rfl | rfl | rfl | rfl | rfl | rfl | rfl | rfl | rfl | rfl | rfl | rfl | rfl | rfl | rfl | rfl | rfl | rfl | rfl
  · exact ⟨dec_oracleGeneral, rfl, by decide, by decide, by decide,
      fun iz fwd y => by cases iz <;> cases fwd <;> simp [oracleGeneral, skipSizeZero, skipValZero, zeroSize, zeroGet, never, noSkip, restrict, opGet, opGets] <;> try rfl,
      fun y => by simp [zeroSize, restrict]⟩
  · exact ⟨dec_oracleGeneralOpNS, rfl, by decide, by decide, by decide,
      fun iz fwd y => by cases iz <;> cases fwd <;> simp [oracleGeneralOpNS, skipSizeZero, skipValZero, zeroSize, zeroGet, never, noSkip, restrict, opGet, opGets] <;> try rfl,
      fun y => by simp [zeroSize, restrict]⟩
  · exact ⟨dec_standardIQI, rfl, by decide, by decide, by decide,
      fun iz fwd y => by cases iz <;> cases fwd <;> simp [standardIQI, skipSizeZero, skipValZero, zeroSize, zeroGet, never, noSkip, restrict, opGet, opGets] <;> try rfl,
      fun y => by simp [never, restrict]⟩
  · exact ⟨dec_standardIQQ, rfl, by decide, by decide, by decide,
      fun iz fwd y => by cases iz <;> cases fwd <;> simp [standardIQQ, skipSizeZero, skipValZero, zeroSize, zeroGet, never, noSkip, restrict, opGet, opGets] <;> try rfl,
      fun y => by simp [never, restrict]⟩
  · exact ⟨dec_standardIQIBH, rfl, by decide, by decide, by decide,
      fun iz fwd y => by cases iz <;> cases fwd <;> simp [standardIQIBH, skipSizeZero, skipValZero, zeroSize, zeroGet, never, noSkip, restrict, opGet, opGets] <;> try rfl,
      fun y => by simp [never, restrict]⟩
  · exact ⟨dec_akamai, rfl, by decide, by decide, by decide,
      fun iz fwd y => by cases iz <;> cases fwd <;> simp [akamai, skipSizeZero, skipValZero, zeroSize, zeroGet, never, noSkip, restrict, opGet, opGets] <;> try rfl,
      fun y => by simp [zeroSize, restrict]⟩
  · exact ⟨dec_cf1, rfl, by decide, by decide, by decide,
      fun iz fwd y => by cases iz <;> cases fwd <;> simp [cf1, skipSizeZero, skipValZero, zeroSize, zeroGet, never, noSkip, restrict, opGet, opGets] <;> try rfl,
      fun y => by simp [zeroSize, restrict]⟩
  · exact ⟨dec_twr, rfl, by decide, by decide, by decide,
      fun iz fwd y => by cases iz <;> cases fwd <;> simp [twr, skipSizeZero, skipValZero, zeroSize, zeroGet, never, noSkip, restrict, opGet, opGets] <;> try rfl,
      fun y => by simp [zeroGet, restrict]⟩
  · exact ⟨dec_twrNS, rfl, by decide, by decide, by decide,
      fun iz fwd y => by cases iz <;> cases fwd <;> simp [twrNS, skipSizeZero, skipValZero, zeroSize, zeroGet, never, noSkip, restrict, opGet, opGets] <;> try rfl,
      fun y => by simp [zeroGet, restrict]⟩
  · exact ⟨dec_wiki2016u, rfl, by decide, by decide, by decide,
      fun iz fwd y => by cases iz <;> cases fwd <;> simp [wiki2016u, skipSizeZero, skipValZero, zeroSize, zeroGet, never, noSkip, restrict, opGet, opGets] <;> try rfl,
      fun y => by simp [zeroSize, restrict]⟩
  · exact ⟨dec_wiki2019u, rfl, by decide, by decide, by decide,
      fun iz fwd y => by cases iz <;> cases fwd <;> simp [wiki2019u, skipSizeZero, skipValZero, zeroSize, zeroGet, never, noSkip, restrict, opGet, opGets] <;> try rfl,
      fun y => by simp [zeroSize, restrict]⟩
  · exact ⟨dec_wiki2019t, rfl, by decide, by decide, by decide,
      fun iz fwd y => by cases iz <;> cases fwd <;> simp [wiki2019t, skipSizeZero, skipValZero, zeroSize, zeroGet, never, noSkip, restrict, opGet, opGets] <;> try rfl,
      fun y => by simp [zeroSize, restrict]⟩
  · exact ⟨dec_oracleAkamai, rfl, by decide, by decide, by decide,
      fun iz fwd y => by cases iz <;> cases fwd <;> simp [oracleAkamai, skipSizeZero, skipValZero, zeroSize, zeroGet, never, noSkip, restrict, opGet, opGets] <;> try rfl,
      fun y => by simp [zeroSize, restrict]⟩
  · exact ⟨dec_oracleCF1, rfl, by decide, by decide, by decide,
      fun iz fwd y => by cases iz <;> cases fwd <;> simp [oracleCF1, skipSizeZero, skipValZero, zeroSize, zeroGet, never, noSkip, restrict, opGet, opGets] <;> try rfl,
      fun y => by simp [zeroSize, restrict]⟩
  · exact ⟨dec_oracleSysTwrNS, rfl, by decide, by decide, by decide,
      fun iz fwd y => by cases iz <;> cases fwd <;> simp [oracleSysTwrNS, skipSizeZero, skipValZero, zeroSize, zeroGet, never, noSkip, restrict, opGet, opGets] <;> try rfl,
      fun y => by simp [zeroGet, restrict]⟩
  · exact ⟨dec_oracleWiki2016u, rfl, by decide, by decide, by decide,
      fun iz fwd y => by cases iz <;> cases fwd <;> simp [oracleWiki2016u, skipSizeZero, skipValZero, zeroSize, zeroGet, never, noSkip, restrict, opGet, opGets] <;> try rfl,
      fun y => by simp [zeroSize, restrict]⟩
  · exact ⟨dec_oracleWiki2019u, rfl, by decide, by decide, by decide,
      fun iz fwd y => by cases iz <;> cases fwd <;> simp [oracleWiki2019u, skipSizeZero, skipValZero, zeroSize, zeroGet, never, noSkip, restrict, opGet, opGets] <;> try rfl,
      fun y => by simp [zeroSize, restrict]⟩
  · exact ⟨dec_valpin, rfl, by decide, by decide, by decide,
      fun iz fwd y => by cases iz <;> cases fwd <;> simp [valpin, skipSizeZero, skipValZero, zeroSize, zeroGet, never, noSkip, restrict, opGet, opGets] <;> try rfl,
      fun y => by simp [never, restrict]⟩
  · exact ⟨dec_vscsi1, rfl, by decide, by decide, by decide,
      fun iz fwd y => by cases iz <;> cases fwd <;> simp [vscsi1, skipSizeZero, skipValZero, zeroSize, zeroGet, never, noSkip, restrict, opGet, opGets] <;> try rfl,
      fun y => by simp [never, restrict]⟩
  · exact ⟨dec_vscsi2, rfl, by decide, by decide, by decide,
      fun iz fwd y => by cases iz <;> cases fwd <;> simp [vscsi2, skipSizeZero, skipValZero, zeroSize, zeroGet, never, noSkip, restrict, opGet, opGets] <;> try rfl,
      fun y => by simp [never, restrict]⟩

/-- what the proofs call the records of the file -/
def TRecs (T : TraceFormat) (vs : List (Fld → Int)) : List Vals := vs.map (fun v => restrict T.obs (T.mean v))

/-- the skip condition -/
def TSk (T : TraceFormat) (iz fwd : Bool) (a : Vals) : Bool := (fwd || T.both) && iz && T.zero a

theorem Good.lays {T : TraceFormat} (g : Good T) {vs : List (Fld → Int)} (h : T.File vs) :
    Lays T.F (encodeAll T.L vs) 0 (restrict T.obs) (TSk T) (fun a => a.set .size 1) (fun a => (a .id).toNat) (TRecs T vs) :=
  lays_of_decodes (d := fun b => b || T.both) g.dec g.item g.pos g.id g.sz g.skip vs h.1

/-- the reader is on a file of `T` at record `k` -/
structure OnFile (T : TraceFormat) (vs : List (Fld → Int)) (k : Nat) (rd : Reader) : Prop where
  fmt : rd.fmt = T.F
  bytes : rd.bytes = encodeAll T.L vs
  start : rd.start = 0
  off : rd.off = k * T.F.item
  le : k ≤ vs.length

theorem OnFile.at {T : TraceFormat} {vs : List (Fld → Int)} {k : Nat} {rd : Reader} (h : OnFile T vs k rd) :
    At T.F (encodeAll T.L vs) 0 (TRecs T vs) rd (TRecs T (vs.take k)) (TRecs T (vs.drop k)) := by
  refine ⟨h.fmt, h.bytes, h.start, ?_, ?_⟩
  · unfold TRecs; rw [← List.map_append, List.take_append_drop]
  · rw [h.off]; unfold TRecs; rw [List.length_map, List.length_take, Nat.min_eq_left h.le]; omega

theorem restrict_obs (obs : List Fld) (x : Vals) : obs.map (restrict obs x) = obs.map x := by
  apply List.map_congr_left
  intro f hf; simp [restrict, hf]

/-- what is seen from record `k` on -/
theorem seen_at {T : TraceFormat} (g : Good T) {vs : List (Fld → Int)} (hF : T.File vs) {k : Nat} {rd : Reader} (h : OnFile T vs k rd)
    (hash : Nat → Nat) (hfwd : rd.fwd = true) (hs : SOkO rd.sampler) :
    seen hash T.obs rd = .ok (((sampled hash (fun v => (v .id).toNat) rd.sampler
      (capped rd.cap rd.nRead (((vs.drop k).map T.mean).filter (fun v => !(rd.ignoreZero && T.zero v))))).map (shownSize rd.ignoreSize)).map
      (fun v => T.obs.map v)) := by
  have LL := g.lays hF
  have rep : Rep T.F (encodeAll T.L vs) 0 (TRecs T vs) (TSk T) rd (live (TSk T) rd (TRecs T (vs.drop k))) := ⟨_, _, h.at, rfl⟩
  obtain ⟨qs, rd', er, va, mm⟩ := readAll_spec LL hash (rd.bytes.length + 1) rd newRequest _ hfwd hs rep (rep_length LL rep)
  unfold seen
  rw [er]
  simp only [Res.bind_ok]
  congr 1
  have hl : live (TSk T) rd (TRecs T (vs.drop k)) =
      (capped rd.cap rd.nRead (((vs.drop k).map T.mean).filter (fun v => !(rd.ignoreZero && T.zero v)))).map (restrict T.obs) := by
    unfold live TSk TRecs
    simp only [hfwd, Bool.true_or, Bool.true_and]
    rw [← capped_map]
    congr 1
    rw [show (fun v => restrict T.obs (T.mean v)) = restrict T.obs ∘ T.mean from rfl, ← List.map_map, List.filter_map]
    congr 1
    apply List.filter_congr
    intro v _
    simp [g.zero]
  rw [hl, sampled_map] at mm
  have h1 : qs.map (fun q => T.obs.map q.vals) = (qs.map (fun q => restrict T.obs q.vals)).map (fun x => T.obs.map x) := by
    rw [List.map_map]
    apply List.map_congr_left
    intro q _; exact (restrict_obs T.obs q.vals).symm
  rw [h1, mm, List.map_map, List.map_map, List.map_map]
  have hidr : ∀ y : Vals, ((restrict T.obs y) .id).toNat = (y .id).toNat := by intro y; simp [restrict, g.id]
  simp only [hidr]
  apply List.map_congr_left
  intro y _
  simp only [Function.comp]
  unfold shown shownSize
  split
  · rw [← restrict_obs T.obs (Vals.set y .size 1)]
    congr 1
    funext f
    unfold restrict Vals.set
    by_cases h : f = .size
    · subst h; simp [g.sz]
    · simp [h]
  · exact restrict_obs T.obs y

theorem file_len {T : TraceFormat} (g : Good T) {vs : List (Fld → Int)} : (encodeAll T.L vs).length = vs.length * T.F.item := by
  rw [encodeAll_length, g.item]

/-- the freshly opened reader -/
def fresh (F : Fmt) (bytes : List Nat) (p : Params) : Reader :=
  ⟨F, bytes, p.start, p.start, p.ignoreZero, p.ignoreSize, p.cap, 0, true, p.sampler.map Sampler.clone, p⟩

theorem setup_eq {F : Fmt} {bytes : List Nat} {p : Params} {rd : Reader} (h : setup F bytes p = .ok rd) : rd = fresh F bytes p := by
  unfold setup at h
  split at h
  · cases h
  · injection h with h; exact h.symm

theorem setup_file {T : TraceFormat} (g : Good T) {vs : List (Fld → Int)} (hF : T.File vs) (p : Params) :
    setup T.F (encodeAll T.L vs) p = .ok (fresh T.F (encodeAll T.L vs) p) := by
  unfold setup
  rw [if_neg]
  · rfl
  · rw [file_len g]
    have : vs.length ≠ 0 := fun h => hF.2 (List.length_eq_zero_iff.1 h)
    have := g.pos
    rw [← g.item] at this
    exact Nat.mul_ne_zero ‹_› (by omega)

theorem onFile_fresh (T : TraceFormat) (vs : List (Fld → Int)) (p : Params) (h : p.start = 0) :
    OnFile T vs 0 (fresh T.F (encodeAll T.L vs) p) := ⟨rfl, rfl, h, by simp [fresh, h], Nat.zero_le _⟩

theorem sok_fresh {F : Fmt} {bytes : List Nat} {p : Params} (h : RatioOk p.sampler) : SOkO (fresh F bytes p).sampler := by
  unfold fresh
  cases hsm : p.sampler with
  | none => trivial
  | some s => cases s with
    | spatial inv => rw [hsm] at h; exact h
    | temporal inv n => trivial

theorem skip_fresh {T : TraceFormat} (g : Good T) (vs : List (Fld → Int)) (p : Params) (h : p.start = 0) (n : Nat) :
    (skipN (fresh T.F (encodeAll T.L vs) p) n).1 = min n vs.length ∧
    (skipN (fresh T.F (encodeAll T.L vs) p) n).2 = { fresh T.F (encodeAll T.L vs) p with off := min n vs.length * T.F.item } := by
  have hp := g.pos
  rw [← g.item] at hp
  unfold skipN
  simp only [fresh, file_len g, h, Nat.zero_add, Nat.sub_zero]
  by_cases hn : n ≤ vs.length
  · rw [if_pos (Nat.mul_le_mul_right _ hn), Nat.min_eq_left hn]; exact ⟨rfl, rfl⟩
  · have : ¬ n * T.F.item ≤ vs.length * T.F.item := fun hh => hn (Nat.le_of_mul_le_mul_right hh hp)
    rw [if_neg this, Nat.min_eq_right (by omega), Nat.mul_div_cancel _ hp]; exact ⟨rfl, rfl⟩

theorem readOne_none {hash : Nat → Nat} {rd : Reader} {q : Request} (h : rd.sampler = none) : readOne hash rd q = readPlain rd q := by
  simp only [readOne]
  split
  · rfl
  · simp_all

/-- reading the record at the position, when it is not left out, without cap and sampler, in either direction -/
theorem read_at {T : TraceFormat} (g : Good T) {vs : List (Fld → Int)} (hF : T.File vs) {k : Nat} {rd : Reader} (h : OnFile T vs k rd)
    (hash : Nat → Nat) (q : Request) {v : Fld → Int} (hk : vs[k]? = some v)
    (hz : ((rd.fwd || T.both) && rd.ignoreZero && T.zero (T.mean v)) = false) (hcap : ¬ rd.cap > 1) (hs : rd.sampler = none) :
    ∃ q', readOne hash rd q = .ok (0, { rd with off := (k + 1) * T.F.item, nRead := rd.nRead + 1 }, q') ∧
      OnFile T vs (k + 1) { rd with off := (k + 1) * T.F.item, nRead := rd.nRead + 1 } ∧ q'.valid = true ∧
      T.obs.map q'.vals = T.obs.map (shownSize rd.ignoreSize (T.mean v)) := by
  have LL := g.lays hF
  have hat := h.at
  obtain ⟨hlt, hget⟩ := List.getElem?_eq_some_iff.1 hk
  have hdrop : TRecs T (vs.drop k) = restrict T.obs (T.mean v) :: TRecs T (vs.drop (k + 1)) := by
    unfold TRecs; rw [List.drop_eq_getElem_cons hlt, List.map_cons, hget]
  rw [hdrop] at hat
  have hne : ¬ rd.off ≥ rd.bytes.length := fun hh => by have := (hat.eof LL).1 hh; cases this
  obtain ⟨y, ey, hv⟩ := LL.dec _ _ _ hat.recs (q.vals.set .ttl (-1))
  have ey' : rd.fmt.decode rd.bytes rd.off (q.vals.set .ttl (-1)) = .ok y := by rw [h.fmt, h.bytes, hat.off]; exact ey
  have hsk : rd.fmt.skip rd.ignoreZero rd.fwd y = false := by
    rw [h.fmt, g.skip, hv, g.zero]; exact hz
  have hoff : rd.off + rd.fmt.item = (k + 1) * T.F.item := by rw [h.off, h.fmt, Nat.add_mul]; omega
  have hr : readPre rd q = .ok (false, 0, { rd with off := (k + 1) * T.F.item, nRead := rd.nRead + 1 }, ⟨y, 0, true⟩) := by
    unfold readPre
    rw [if_neg hne, if_neg (fun hh => hcap hh.1)]
    unfold Reader.fuel
    rw [readRec]
    simp only [if_neg hne, ey', Res.bind_ok, hsk, hoff]
    rfl
  refine ⟨applyIgnoreSize rd ⟨y, 0, true⟩, ?_, ⟨h.fmt, h.bytes, h.start, rfl, by omega⟩, ?_, ?_⟩
  · rw [readOne_none hs]
    unfold readPlain
    rw [hr]
    rfl
  · rw [valid_apply]
  · rw [← restrict_obs, view_apply LL, hv]
    unfold shown shownSize
    split
    · rw [← restrict_obs T.obs (Vals.set (T.mean v) .size 1)]
      congr 1
      funext f
      unfold restrict Vals.set
      by_cases h : f = .size
      · subst h; simp [g.sz]
      · simp [h]
    · exact restrict_obs _ _

/-- reading `n` records -/
theorem readN_at {T : TraceFormat} (g : Good T) {vs : List (Fld → Int)} (hF : T.File vs) (hash : Nat → Nat) :
    ∀ (n : Nat) {k : Nat} {rd : Reader} (_ : OnFile T vs k rd) (q : Request) (_ : k + n ≤ vs.length) (_ : T.NoZero rd.ignoreZero vs)
      (_ : ¬ rd.cap > 1) (_ : rd.sampler = none),
    ∃ q', readN hash n rd q = .ok ({ rd with off := (k + n) * T.F.item, nRead := rd.nRead + n }, q') ∧
      OnFile T vs (k + n) { rd with off := (k + n) * T.F.item, nRead := rd.nRead + n }
  | 0, k, rd, h, q, _, _, _, _ => by
    refine ⟨q, ?_, ?_⟩
    · simp only [readN, Nat.add_zero, ← h.off]
    · simp only [Nat.add_zero, ← h.off]; exact h
  | n + 1, k, rd, h, q, hn, hz, hc, hs => by
    have hk : vs[k]? = some (vs[k]'(by omega)) := List.getElem?_eq_getElem _
    obtain ⟨q1, e1, o1, _, _⟩ := read_at g hF h hash q hk (by
      have := hz (vs[k]'(by omega)) (List.getElem_mem _)
      rw [Bool.and_assoc, this, Bool.and_false]) hc hs
    obtain ⟨q2, e2, o2⟩ := readN_at g hF hash n o1 q1 (by omega) hz hc hs
    refine ⟨q2, ?_, ?_⟩
    · rw [readN, e1]
      simp only [Res.bind_ok, ne_eq, not_true_eq_false, if_false]
      rw [e2]
      simp only [show k + 1 + n = k + (n + 1) by omega, show rd.nRead + 1 + n = rd.nRead + (n + 1) by omega]
    · simpa only [show k + 1 + n = k + (n + 1) by omega, show rd.nRead + 1 + n = rd.nRead + (n + 1) by omega] using o2

/-! ## backwards -/

theorem readUp_at {T : TraceFormat} (g : Good T) {vs : List (Fld → Int)} (hF : T.File vs) (hash : Nat → Nat) :
    ∀ (k : Nat) (fuel : Nat) {rd : Reader} (_ : OnFile T vs (k + 1) rd) (q : Request) (_ : k < fuel)
      (_ : ∀ v ∈ vs, ((rd.fwd || T.both) && rd.ignoreZero && T.zero (T.mean v)) = false) (_ : ¬ rd.cap > 1) (_ : rd.sampler = none),
    ∃ qs, readUp hash fuel rd q = .ok qs ∧ (∀ q ∈ qs, q.valid = true) ∧
      qs.map (fun q => T.obs.map q.vals) = ((vs.take k).reverse.map (fun v => shownSize rd.ignoreSize (T.mean v))).map (fun v => T.obs.map v) := by
  intro k
  induction k with
  | zero =>
    intro fuel rd h q hf hz hc hs
    obtain ⟨fuel, rfl⟩ : ∃ n, fuel = n + 1 := ⟨fuel - 1, by omega⟩
    have hp := g.pos
    rw [← g.item] at hp
    have h2 : (goBackTwo rd).1 = 1 := by
      unfold goBackTwo goBackOne
      simp only [h.start, h.fmt, h.off, Nat.zero_add, Nat.one_mul, Nat.le_refl, ge_iff_le, if_true, Nat.sub_self]
      rw [if_neg (by omega)]
    refine ⟨[], ?_, by simp, by simp⟩
    rw [readUp, readAbove, h2]
    rfl
  | succ k ih =>
    intro fuel rd h q hf hz hc hs
    obtain ⟨fuel, rfl⟩ : ∃ n, fuel = n + 1 := ⟨fuel - 1, by omega⟩
    have hp := g.pos
    rw [← g.item] at hp
    have hle := h.le
    have h1 : goBackOne rd = (0, { rd with off := (k + 1) * T.F.item }) := by
      unfold goBackOne
      have e1 : (k + 1 + 1) * T.F.item = (k + 1) * T.F.item + T.F.item := by rw [Nat.add_mul (k + 1)]; omega
      simp only [h.start, h.fmt, h.off, Nat.zero_add, ge_iff_le, e1]
      rw [if_pos (by omega), Nat.add_sub_cancel]
    have h2 : goBackTwo rd = (0, { rd with off := k * T.F.item }) := by
      unfold goBackTwo
      rw [h1]
      simp only [if_true]
      unfold goBackOne
      have e1 : (k + 1) * T.F.item = k * T.F.item + T.F.item := by rw [Nat.add_mul]; omega
      simp only [h.start, h.fmt, Nat.zero_add, ge_iff_le, e1]
      rw [if_pos (by omega), Nat.add_sub_cancel]
    have ho : OnFile T vs k { rd with off := k * T.F.item } := ⟨h.fmt, h.bytes, h.start, rfl, by omega⟩
    have hk : vs[k]? = some (vs[k]'(by omega)) := List.getElem?_eq_getElem _
    obtain ⟨q1, e1, o1, va, mv⟩ := read_at g hF ho hash q hk (hz _ (List.getElem_mem _)) hc hs
    obtain ⟨qs, e2, va2, m2⟩ := ih fuel o1 q1 (by omega) hz hc hs
    refine ⟨q1 :: qs, ?_, ?_, ?_⟩
    · rw [readUp, readAbove, h2]
      simp only [if_true, e1, Res.bind_ok, ne_eq, not_true_eq_false, if_false]
      simp only at e2
      rw [e2]; rfl
    · intro q hq
      rcases List.mem_cons.1 hq with rfl | hq
      · exact va
      · exact va2 q hq
    · rw [List.map_cons, m2, mv, List.take_succ, hk, List.reverse_append, List.map_append, List.map_append]
      rfl

theorem readBackward_at {T : TraceFormat} (g : Good T) {vs : List (Fld → Int)} (hF : T.File vs) (hash : Nat → Nat) (p : Params)
    (h0 : p.start = 0) (hz : T.both = true → T.NoZero p.ignoreZero vs) (hc : ¬ p.cap > 1) (hs : p.sampler = none) (q : Request) :
    ∃ qs, readBackward hash (fresh T.F (encodeAll T.L vs) p) q = .ok qs ∧ (∀ q ∈ qs, q.valid = true) ∧
      qs.map (fun q => T.obs.map q.vals) = (vs.reverse.map (fun v => shownSize p.ignoreSize (T.mean v))).map (fun v => T.obs.map v) := by
  obtain ⟨n, hn⟩ : ∃ n, vs.length = n + 1 := by
    cases vs with
    | nil => exact absurd rfl hF.2
    | cons a l => exact ⟨l.length, rfl⟩
  have hp := g.pos
  rw [← g.item] at hp
  have hz' : ∀ v ∈ vs, ((false || T.both) && p.ignoreZero && T.zero (T.mean v)) = false := by
    intro v hv
    cases hb : T.both with
    | false => rfl
    | true => have := hz hb v hv; simpa using this
  have e1 : (n + 1) * T.F.item = n * T.F.item + T.F.item := by rw [Nat.add_mul]; omega
  have hg : goBackOne (setPos { fresh T.F (encodeAll T.L vs) p with fwd := false } (encodeAll T.L vs).length) =
      (0, { fresh T.F (encodeAll T.L vs) p with fwd := false, off := n * T.F.item }) := by
    unfold setPos goBackOne
    simp only [fresh, file_len g, hn, Nat.mul_mod_left, Nat.sub_zero, h0, Nat.zero_add, ge_iff_le]
    rw [if_pos (by omega), e1, Nat.add_sub_cancel]
  have ho : OnFile T vs n { fresh T.F (encodeAll T.L vs) p with fwd := false, off := n * T.F.item } := ⟨rfl, rfl, h0, rfl, by omega⟩
  have hk : vs[n]? = some (vs[n]'(by omega)) := List.getElem?_eq_getElem _
  have hs' : (fresh T.F (encodeAll T.L vs) p).sampler = none := by simp [fresh, hs]
  obtain ⟨q1, r1, o1, va, mv⟩ := read_at g hF ho hash q hk (hz' _ (List.getElem_mem _)) hc hs'
  obtain ⟨qs, e2, va2, m2⟩ := readUp_at g hF hash n ((encodeAll T.L vs).length + 1) o1 q1 (by
    rw [file_len g, hn]
    have : (n + 1) * 1 ≤ (n + 1) * T.F.item := Nat.mul_le_mul_left _ hp
    omega) hz' hc hs'
  refine ⟨q1 :: qs, ?_, ?_, ?_⟩
  · have hb : readBackward hash (fresh T.F (encodeAll T.L vs) p) q =
        (readOne hash (goBackOne (setPos { fresh T.F (encodeAll T.L vs) p with fwd := false } (encodeAll T.L vs).length)).2 q >>= fun r =>
          readUp hash ((encodeAll T.L vs).length + 1) r.2.1 r.2.2 >>= fun t => .ok (r.2.2 :: t)) := rfl
    rw [hb, hg]
    simp only [r1, Res.bind_ok]
    simp only at e2
    rw [e2]; rfl
  · intro q hq
    rcases List.mem_cons.1 hq with rfl | hq
    · exact va
    · exact va2 q hq
  · have hv : vs = vs.take n ++ [vs[n]'(by omega)] := by
      have := List.take_succ (l := vs) (i := n)
      rw [hk, List.take_of_length_le (by omega)] at this
      exact this
    have hrev : vs.reverse = vs[n]'(by omega) :: (vs.take n).reverse := by
      conv => lhs; rw [hv]
      rw [List.reverse_append]; rfl
    rw [List.map_cons, m2, mv, hrev, List.map_cons, List.map_cons]
    rfl

/-! ## calls only move the position -/

/-- equal up to position and count -/
def Moved (rd rd' : Reader) : Prop := ∃ o n, rd' = { rd with off := o, nRead := n }

theorem Moved.refl (rd : Reader) : Moved rd rd := ⟨rd.off, rd.nRead, rfl⟩

theorem Moved.trans {a b c : Reader} (h1 : Moved a b) (h2 : Moved b c) : Moved a c := by
  obtain ⟨_, _, rfl⟩ := h1
  obtain ⟨_, _, rfl⟩ := h2
  exact ⟨_, _, rfl⟩

theorem readRec_moved : ∀ (fuel : Nat) (rd : Reader) (q : Request) (r : Int × Reader × Request), readRec fuel rd q = .ok r → Moved rd r.2.1
  | 0, rd, q, r, h => by cases h
  | fuel + 1, rd, q, r, h => by
    rw [readRec] at h
    split at h
    · injection h with h; subst h; exact Moved.refl _
    · cases hd : rd.fmt.decode rd.bytes rd.off q.vals with
      | error e => rw [hd] at h; cases h
      | ok x =>
        rw [hd] at h
        simp only [Res.bind_ok] at h
        split at h
        · exact Moved.trans ⟨_, _, rfl⟩ (readRec_moved fuel _ _ r h)
        · injection h with h; subst h; exact ⟨_, _, rfl⟩

theorem readPre_moved {rd : Reader} {q : Request} {r : Bool × Int × Reader × Request} (h : readPre rd q = .ok r) : Moved rd r.2.2.1 := by
  unfold readPre at h
  split at h
  · injection h with h; subst h; exact Moved.refl _
  · split at h
    · injection h with h; subst h; exact Moved.refl _
    · cases hr : readRec rd.fuel { rd with nRead := rd.nRead + 1 } { vals := q.vals.set .ttl (-1), hv := 0, valid := true } with
      | error e => rw [hr] at h; cases h
      | ok x =>
        rw [hr] at h
        injection h with h; subst h
        exact Moved.trans ⟨_, _, rfl⟩ (readRec_moved _ _ _ _ hr)

theorem readPlain_moved {rd : Reader} {q : Request} {r : Int × Reader × Request} (h : readPlain rd q = .ok r) : Moved rd r.2.1 := by
  unfold readPlain at h
  cases hr : readPre rd q with
  | error e => rw [hr] at h; cases h
  | ok x =>
    rw [hr] at h
    simp only [Res.bind_ok] at h
    split at h <;> (injection h with h; subst h; exact readPre_moved hr)

theorem goBackOne_moved (rd : Reader) : Moved rd (goBackOne rd).2 := by
  unfold goBackOne; split
  · exact ⟨_, _, rfl⟩
  · exact Moved.refl _

theorem goBackTwo_moved (rd : Reader) : Moved rd (goBackTwo rd).2 := by
  unfold goBackTwo; split
  · exact (goBackOne_moved rd).trans (goBackOne_moved _)
  · exact goBackOne_moved rd

theorem abovePlain_moved {rd : Reader} {q : Request} {r : Int × Reader × Request} (h : abovePlain rd q = .ok r) : Moved rd r.2.1 := by
  unfold abovePlain at h
  split at h
  · exact (goBackTwo_moved rd).trans (readPlain_moved h)
  · injection h with h; subst h; exact goBackTwo_moved rd

theorem sampleLoop_moved (hash : Nat → Nat) (inv : Nat) : ∀ (fuel : Nat) (rd : Reader) (st : Int) (q : Request)
    (r : Bool × Int × Sampler × Reader × Request), sampleLoop hash fuel (.spatial inv) rd st q = .ok r → Moved rd r.2.2.2.1 ∧ r.2.2.1 = .spatial inv
  | 0, rd, st, q, r, h => by cases h
  | fuel + 1, rd, st, q, r, h => by
    rw [sampleLoop] at h
    cases hs : Sampler.sample hash (.spatial inv) q with
    | error e => rw [hs] at h; cases h
    | ok x =>
      have hx : x.2.1 = .spatial inv := by
        simp only [Sampler.sample] at hs
        cases hh : Sampling.spatialSample hash inv ⟨(q.vals .id).toNat, q.hv⟩ with
        | error e => rw [hh] at hs; cases hs
        | ok z => rw [hh] at hs; injection hs with hs; subst hs; rfl
      rw [hs] at h
      simp only [Res.bind_ok] at h
      split at h
      · injection h with h; subst h; exact ⟨Moved.refl _, hx⟩
      · cases hp : (if rd.fwd = true then readPlain rd x.2.2 else abovePlain rd x.2.2) with
        | error e => rw [hp] at h; cases h
        | ok p =>
          have hm : Moved rd p.2.1 := by
            split at hp
            · exact readPlain_moved hp
            · exact abovePlain_moved hp
          rw [hp] at h
          simp only [Res.bind_ok] at h
          split at h
          · injection h with h; subst h; exact ⟨hm, hx⟩
          · rw [hx] at h
            obtain ⟨h1, h2⟩ := sampleLoop_moved hash inv fuel _ _ _ r h
            exact ⟨hm.trans h1, h2⟩

theorem readOne_moved {hash : Nat → Nat} {rd : Reader} {q : Request} {r : Int × Reader × Request} (hn : NotTemporal rd.sampler)
    (h : readOne hash rd q = .ok r) : Moved rd r.2.1 := by
  unfold readOne at h
  cases hs : rd.sampler with
  | none => rw [hs] at h; exact readPlain_moved h
  | some s =>
    cases s with
    | temporal a b => rw [hs] at hn; exact hn.elim
    | spatial inv =>
      rw [hs] at h
      simp only at h
      cases hp : readPre rd q with
      | error e => rw [hp] at h; cases h
      | ok x =>
        have hm := readPre_moved hp
        rw [hp] at h
        simp only [Res.bind_ok] at h
        split at h
        · injection h with h; subst h; exact hm
        · cases hl : sampleLoop hash rd.fuel (.spatial inv) { x.2.2.1 with sampler := none } x.2.1 x.2.2.2 with
          | error e => rw [hl] at h; cases h
          | ok t =>
            obtain ⟨⟨o, n, hm2⟩, h2⟩ := sampleLoop_moved hash inv _ _ _ _ _ hl
            rw [hl] at h
            simp only [Res.bind_ok, hm2, h2] at h
            obtain ⟨o1, n1, hm⟩ := hm
            rw [hm, ← hs] at h
            split at h <;> (injection h with h; subst h; exact ⟨o, n, rfl⟩)

theorem Moved.notTemporal {rd rd' : Reader} (h : Moved rd rd') (hn : NotTemporal rd.sampler) : NotTemporal rd'.sampler := by
  obtain ⟨_, _, rfl⟩ := h; exact hn

theorem readAbove_moved {hash : Nat → Nat} {rd : Reader} {q : Request} {r : Int × Reader × Request} (hn : NotTemporal rd.sampler)
    (h : readAbove hash rd q = .ok r) : Moved rd r.2.1 := by
  unfold readAbove at h
  split at h
  · exact (goBackTwo_moved rd).trans (readOne_moved ((goBackTwo_moved rd).notTemporal hn) h)
  · injection h with h; subst h; exact goBackTwo_moved rd

theorem Moved.setOff {a b : Reader} (h : Moved a b) (o : Nat) : Moved a { b with off := o } := by
  obtain ⟨_, n, rfl⟩ := h; exact ⟨o, n, rfl⟩

theorem Moved.call {hash : Nat → Nat} {rd rd' : Reader} {q : Request} {c : Call} (hn : NotTemporal rd.sampler)
    (h : c.run hash rd q = .ok rd') : Moved rd rd' := by
  cases c with
  | read =>
    simp only [Call.run] at h
    cases hr : readOne hash rd q with
    | error e => rw [hr] at h; cases h
    | ok r => rw [hr] at h; injection h with h; subst h; exact readOne_moved hn hr
  | above =>
    simp only [Call.run] at h
    cases hr : readAbove hash rd q with
    | error e => rw [hr] at h; cases h
    | ok r => rw [hr] at h; injection h with h; subst h; exact readAbove_moved hn hr
  | back => simp only [Call.run] at h; injection h with h; subst h; exact goBackOne_moved rd
  | backTwo => simp only [Call.run] at h; injection h with h; subst h; exact goBackTwo_moved rd
  | skip n =>
    simp only [Call.run] at h; injection h with h; subst h
    unfold skipN; split <;> exact ⟨_, _, rfl⟩
  | reset => simp only [Call.run] at h; injection h with h; subst h; exact ⟨_, _, rfl⟩
  | pos n => simp only [Call.run] at h; injection h with h; subst h; exact ⟨_, _, rfl⟩
  | first =>
    simp only [Call.run, readFirst] at h
    cases hr : readOne hash (reset rd) q with
    | error e => rw [hr] at h; cases h
    | ok r =>
      rw [hr] at h; injection h with h; subst h
      exact (Moved.trans (b := reset rd) ⟨_, _, rfl⟩ (readOne_moved hn hr)).setOff _
  | last =>
    simp only [Call.run, readLast] at h
    have hm : Moved rd (goBackOne (setPos (reset rd) rd.bytes.length)).2 :=
      Moved.trans (b := setPos (reset rd) rd.bytes.length) ⟨_, _, rfl⟩ (goBackOne_moved _)
    cases hr : readOne hash (goBackOne (setPos (reset rd) rd.bytes.length)).2 q with
    | error e => rw [hr] at h; cases h
    | ok r =>
      rw [hr] at h; injection h with h; subst h
      exact (hm.trans (readOne_moved (hm.notTemporal hn) hr)).setOff _

theorem Reached.moved {hash : Nat → Nat} {rd0 rd : Reader} (hn : NotTemporal rd0.sampler) (h : Reached hash rd0 rd) : Moved rd0 rd := by
  induction h with
  | refl => exact Moved.refl _
  | step q c _ e ih => exact ih.trans (Moved.call (ih.notTemporal hn) e)

end Verif.Reader
