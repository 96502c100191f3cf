import Verif.Proof.TraceConv
import Verif.Props.ReaderOps
import Verif.Props.Belady
/-!
# C44: converting a trace to the oracleGeneral format
-/

namespace Verif.Props.TraceConv
open Verif Verif.Reader Verif.TraceConv Verif.Spec Verif.Spec.Reader Verif.Spec.Conv

/-- **C44** (`_partial`: no cap and no sampler; times, ids and sizes representable in the output format; wiki traces without zero-size requests)
converting a trace in any supported format that has times writes an oracleGeneral file with one record per request, in order, with the time,
object and size of the request and the number of the next request for the object -/
theorem C44_convert_partial (T : TraceFormat) (hT : T ∈ formats) (ht : .time ∈ T.obs) (vs : List (Fld → Int)) (hF : T.File vs) (p : Params)
    (h0 : p.start = 0) (hc : ¬ p.cap > 1) (hs : p.sampler = none) (hz : T.both = true → T.NoZero p.ignoreZero vs)
    (hrep : ∀ v ∈ source T p vs, Representable v) (hn : vs.length < 9223372036854775808) (hash : Nat → Nat) (keepSize : Bool) :
    ∃ rd recs, setup T.F (encodeAll T.L vs) p = .ok rd ∧ convert hash rd keepSize = .ok (encodeAll lOracleGeneral recs) ∧
      Converted keepSize (source T p vs) recs ∧ ∀ r ∈ recs, Fits lOracleGeneral r := by
  have g := good_of_mem hT
  have hobs : .time ∈ T.obs ∧ .id ∈ T.obs ∧ .size ∈ T.obs := by
    refine ⟨ht, ?_⟩
    have : ∀ T ∈ formats, .id ∈ T.obs ∧ .size ∈ T.obs := by
      intro T hT
      simp only [formats, List.mem_cons, List.not_mem_nil, or_false] at hT
      rcases hT with rfl | rfl | rfl | rfl | rfl | rfl | rfl | rfl | rfl | rfl | rfl | rfl | rfl | rfl | rfl | rfl | rfl | rfl | rfl | rfl <;> decide
    exact this T hT
  obtain ⟨recs, h1, h2, h3⟩ := convert_ok g hobs hF hash p h0 hz hc hs hrep hn keepSize
  exact ⟨_, recs, setup_file g hF p, h1, h2, h3⟩

theorem og_mem : (⟨oracleGeneral, lOracleGeneral, [.time, .id, .size, .next], fun _ => True,
    fun v => Vals.set v .next (nextOf (v .next)), zeroSize, false⟩ : TraceFormat) ∈ formats := by
  simp [formats]

/-- reading an oracleGeneral file without zero sizes delivers its records -/
theorem read_back (recs : List (Fld → Int)) (hfit : ∀ r ∈ recs, Fits lOracleGeneral r) (hne : recs ≠ []) (hz : ∀ r ∈ recs, r .size ≠ 0) (hash : Nat → Nat) :
    ∃ rd qs rd', setup oracleGeneral (encodeAll lOracleGeneral recs) defaultParams = .ok rd ∧
      readAll hash (rd.bytes.length + 1) rd newRequest = .ok (qs, rd') ∧ qs.length = recs.length ∧
      ∀ (i : Nat) (r : Fld → Int) (q : Request), recs[i]? = some r → qs[i]? = some q →
        q.vals .time = r .time ∧ q.vals .id = r .id ∧ q.vals .size = r .size ∧ q.vals .next = nextOf (r .next) := by
  obtain ⟨rd, qs, rd', h1, h2, _, h4⟩ := Reader.C35_oracleGeneral recs (fun v hv => ⟨hfit v hv, trivial⟩) hne hash defaultParams rfl trivial
  have he : expected hash (fun v => Vals.set v .next (nextOf (v .next))) zeroSize defaultParams recs = recs.map (fun v => Vals.set v .next (nextOf (v .next))) := by
    unfold expected
    have : List.filter (fun v => !(defaultParams.ignoreZero && zeroSize v)) (recs.map (fun v => Vals.set v .next (nextOf (v .next)))) = recs.map (fun v => Vals.set v .next (nextOf (v .next))) := by
      rw [List.filter_eq_self]
      intro a ha
      obtain ⟨r, hr, rfl⟩ := List.mem_map.1 ha
      simp [defaultParams, zeroSize, Vals.set, hz r hr]
    rw [this]
    unfold capped
    rw [if_neg (by decide)]
    simp only [defaultParams, Option.map_none, sampled]
    have : shownSize false = id := by funext v; rfl
    rw [this, List.map_id]
  rw [he] at h4
  have hl : qs.length = recs.length := by have := congrArg List.length h4; simpa using this
  refine ⟨rd, qs, rd', h1, h2, hl, ?_⟩
  intro i r q hr hq
  have e := congrArg (fun l => l[i]?) h4
  simp only [List.getElem?_map, hr, hq, Option.map_some, Option.some.injEq, List.map_cons, List.map_nil, List.cons.injEq, and_true] at e
  obtain ⟨e1, e2, e3, e4⟩ := e
  refine ⟨?_, ?_, ?_, ?_⟩
  · rw [e1]; simp [Vals.set]
  · rw [e2]; simp [Vals.set]
  · rw [e3]; simp [Vals.set]
  · rw [e4]; simp [Vals.set]

/-- **C44** (`_partial`: as above, and no zero-size requests) reading the converted file delivers the requests of the original trace, each with the
number of the next request for its object, or `INT64_MAX` -/
theorem C44_readBack_partial (T : TraceFormat) (hT : T ∈ formats) (ht : .time ∈ T.obs) (vs : List (Fld → Int)) (hF : T.File vs) (p : Params)
    (h0 : p.start = 0) (hc : ¬ p.cap > 1) (hs : p.sampler = none) (hz : ∀ v ∈ source T p vs, v .size ≠ 0)
    (hzero : T.both = true → T.NoZero p.ignoreZero vs)
    (hrep : ∀ v ∈ source T p vs, Representable v) (hn : vs.length < 9223372036854775807) (hash : Nat → Nat) :
    ∃ rd out rd2 qs rd3, setup T.F (encodeAll T.L vs) p = .ok rd ∧ convert hash rd false = .ok out ∧
      setup oracleGeneral out defaultParams = .ok rd2 ∧ readAll hash (rd2.bytes.length + 1) rd2 newRequest = .ok (qs, rd3) ∧ qs.length = vs.length ∧
      ∀ (i : Nat) (v : Fld → Int) (q : Request), (source T p vs)[i]? = some v → qs[i]? = some q →
        q.vals .time = v .time ∧ q.vals .id = v .id ∧ q.vals .size = v .size ∧
        ((∃ j, NextAt ((source T p vs).map (fun u => u .id)) i j ∧ q.vals .next = j + 1) ∨
          ((∀ j, ¬ NextAt ((source T p vs).map (fun u => u .id)) i j) ∧ q.vals .next = int64Max)) := by
  obtain ⟨rd, recs, h1, h2, ⟨hl, h3⟩, h4⟩ := C44_convert_partial T hT ht vs hF p h0 hc hs hzero hrep (by omega) hash false
  have hsl : (source T p vs).length = vs.length := by simp [source]
  have hpos : vs.length ≠ 0 := fun h => hF.2 (List.length_eq_zero_iff.1 h)
  have hne : recs ≠ [] := by intro h; rw [h, hsl] at hl; simp at hl; omega
  have hget : ∀ (i : Nat) (r : Fld → Int), recs[i]? = some r → ∃ v, (source T p vs)[i]? = some v := by
    intro i r hr
    refine ⟨_, List.getElem?_eq_getElem ?_⟩
    by_contra hcon
    rw [List.getElem?_eq_none (by omega)] at hr; cases hr
  have hz' : ∀ r ∈ recs, r .size ≠ 0 := by
    intro r hr
    obtain ⟨i, hi, ho⟩ := List.mem_iff_getElem.1 hr
    have ho' := List.getElem?_eq_getElem hi
    rw [ho] at ho'
    obtain ⟨v, hv⟩ := hget i r ho'
    have := (h3 i v r hv ho').2.2.2
    simp only [Bool.false_eq_true, if_false] at this
    rw [this]
    exact hz v (List.mem_of_getElem? hv)
  obtain ⟨rd2, qs, rd3, k1, k2, k3, k4⟩ := read_back recs h4 hne hz' hash
  refine ⟨rd, _, rd2, qs, rd3, h1, h2, k1, k2, by rw [k3, hl, hsl], ?_⟩
  intro i v q hv hq
  have hr : ∃ r, recs[i]? = some r := by
    refine ⟨_, List.getElem?_eq_getElem ?_⟩
    by_contra hcon
    rw [List.getElem?_eq_none (by omega)] at hq; cases hq
  obtain ⟨r, hr⟩ := hr
  obtain ⟨a1, a2, a3, a4⟩ := h3 i v r hv hr
  obtain ⟨b1, b2, b3, b4⟩ := k4 i r q hr hq
  simp only [Bool.false_eq_true, if_false] at a4
  refine ⟨b1.trans a1, b2.trans a2, b3.trans a4, ?_⟩
  rcases a3 with ⟨j, hj, e⟩ | ⟨e, hj⟩
  · refine Or.inl ⟨j, hj, ?_⟩
    rw [b4, e, nextOf, if_neg (by omega)]
  · refine Or.inr ⟨hj, ?_⟩
    rw [b4, e, nextOf, if_pos rfl]

/-! ## the converted trace is what Belady needs -/

theorem nextUse_none (vt : Nat → Int) (l : List ObjId) (x : ObjId) (t : Nat) (h : ∀ k : Nat, l[k]? ≠ some x) : nextUse vt t l x = int64Max := by
  induction l generalizing t with
  | nil => rfl
  | cons y l ih =>
    have h0 : y ≠ x := by have := h 0; simpa using this
    rw [nextUse, if_neg h0]
    exact ih (t + 1) (fun k => by have := h (k + 1); simpa using this)

theorem nextUse_some (vt : Nat → Int) (l : List ObjId) (x : ObjId) (t k : Nat) (h : l[k]? = some x) (hm : ∀ m, m < k → l[m]? ≠ some x) :
    nextUse vt t l x = vt (t + k) := by
  induction l generalizing t k with
  | nil => simp at h
  | cons y l ih =>
    cases k with
    | zero =>
      simp only [List.getElem?_cons_zero, Option.some.injEq] at h
      rw [nextUse, if_pos h]; rfl
    | succ k =>
      have h0 : y ≠ x := by have := hm 0 (by omega); simpa using this
      rw [nextUse, if_neg h0, ih (t + 1) k (by simpa using h) (fun m hmk => by have := hm (m + 1) (by omega); simpa using this)]
      congr 1; omega

theorem annotated_of (rs : List Req) : ∀ (pre : List Req),
    (∀ (i : Nat) (r : Req), pre.length ≤ i → (pre ++ rs)[i]? = some r →
      (∃ j, NextAt ((pre ++ rs).map Req.id) i j ∧ r.next = j + 1) ∨ ((∀ j, ¬ NextAt ((pre ++ rs).map Req.id) i j) ∧ r.next = int64Max)) →
    Annotated (fun i => (i : Int) + 1) pre.length rs := by
  induction rs with
  | nil => intros; trivial
  | cons r rs ih =>
    intro pre h
    have hself : (pre ++ r :: rs)[pre.length]? = some r := by simp
    have hid : ((pre ++ r :: rs).map Req.id)[pre.length]? = some r.id := by rw [List.getElem?_map, hself]; rfl
    have hoff : ∀ k : Nat, ((pre ++ r :: rs).map Req.id)[pre.length + 1 + k]? = (rs.map Req.id)[k]? := by
      intro k
      rw [List.getElem?_map, List.getElem?_append_right (by omega), show pre.length + 1 + k - pre.length = k + 1 by omega, List.getElem?_cons_succ, List.getElem?_map]
    refine ⟨?_, ?_⟩
    · rcases h pre.length r (Nat.le_refl _) hself with ⟨j, ⟨h1, h2, h3, h4⟩, e⟩ | ⟨hno, e⟩
      · obtain ⟨k, rfl⟩ : ∃ k, j = pre.length + 1 + k := ⟨j - (pre.length + 1), by omega⟩
        rw [nextUse_some _ _ _ _ k (by rw [← hoff, h3, hid]) (fun m hm => by
          have := h4 (pre.length + 1 + m) (by omega) (by omega)
          rw [hoff, hid] at this; exact this), e]
      · rw [nextUse_none, e]
        intro k
        -- the first such position would be the next request
        induction k using Nat.strongRecOn with
        | ind k ihk =>
          intro hk
          refine hno (pre.length + 1 + k) ⟨by omega, ?_, by rw [hoff, hk, hid], ?_⟩
          · by_contra hc
            rw [← hoff, List.getElem?_eq_none (by omega)] at hk; cases hk
          · intro m h1 h2
            obtain ⟨m', rfl⟩ : ∃ m', m = pre.length + 1 + m' := ⟨m - (pre.length + 1), by omega⟩
            rw [hoff, hid]
            exact ihk m' (by omega)
    · have := ih (pre ++ [r]) (by
        intro i r' hi hr'
        rw [List.append_assoc] at hr' ⊢
        exact h i r' (by simp at hi; omega) hr')
      simpa using this

/-- **C44** (`_partial`: as above) Belady on the converted trace: converting a trace of objects of one size and running the converted file through
the Belady cache gives as many hits as any demand-paging cache with room for the same number of objects can get on the original trace -/
theorem C44_belady_partial (T : TraceFormat) (hT : T ∈ formats) (ht : .time ∈ T.obs) (vs : List (Fld → Int)) (hF : T.File vs) (p : Params)
    (h0 : p.start = 0) (hc : ¬ p.cap > 1) (hs : p.sampler = none) (hzero : T.both = true → T.NoZero p.ignoreZero vs)
    (hrep : ∀ v ∈ source T p vs, Representable v) (hn : vs.length ≤ 9007199254740992) (hash : Nat → Nat)
    (cs md sz : Nat) (hu : 0 < sz) (hfit : sz + md ≤ cs) (hsm : sz + md < u32) (hsz : ∀ v ∈ source T p vs, v .size = sz) :
    ∃ rd out rd2 qs rd3 hits s, setup T.F (encodeAll T.L vs) p = .ok rd ∧ convert hash rd false = .ok out ∧
      setup oracleGeneral out defaultParams = .ok rd2 ∧ readAll hash (rd2.bytes.length + 1) rd2 newRequest = .ok (qs, rd3) ∧
      Belady.algo.gets (Belady.init cs md .none) (qs.map asReq) = .ok (hits, s) ∧
      ∀ h, Play (cs / (sz + md)) ∅ ((source T p vs).map (fun v => (v .id).toNat)) h → h ≤ hits.count true := by
  obtain ⟨rd, out, rd2, qs, rd3, h1, h2, h3, h4, h5, h6⟩ := C44_readBack_partial T hT ht vs hF p h0 hc hs
    (fun v hv => by rw [hsz v hv]; omega) hzero hrep (by omega) hash
  have hsl : (source T p vs).length = vs.length := by simp [source]
  have hsome : ∀ (i : Nat) (q : Request), qs[i]? = some q → ∃ v, (source T p vs)[i]? = some v := by
    intro i q hq
    refine ⟨_, List.getElem?_eq_getElem ?_⟩
    by_contra hcon
    rw [List.getElem?_eq_none (by omega)] at hq; cases hq
  have hids : (qs.map asReq).map Req.id = (source T p vs).map (fun v => (v .id).toNat) := by
    apply List.ext_getElem?
    intro i
    simp only [List.getElem?_map]
    cases hq : qs[i]? with
    | none =>
      rw [List.getElem?_eq_none (by rw [List.getElem?_eq_none_iff] at hq; omega)]; rfl
    | some q =>
      obtain ⟨v, hv⟩ := hsome i q hq
      rw [hv]
      simp only [Option.map_some, asReq, (h6 i v q hv hq).2.1]
  have hmem : ∀ r ∈ qs.map asReq, r.size = sz := by
    intro r hr
    obtain ⟨i, hi, ho⟩ := List.mem_iff_getElem.1 hr
    have ho' := List.getElem?_eq_getElem hi
    rw [ho, List.getElem?_map] at ho'
    cases hq : qs[i]? with
    | none => rw [hq] at ho'; cases ho'
    | some q =>
      rw [hq] at ho'
      simp only [Option.map_some, Option.some.injEq] at ho'
      obtain ⟨v, hv⟩ := hsome i q hq
      rw [← ho']
      simp only [asReq, (h6 i v q hv hq).2.2.1, hsz v (List.mem_of_getElem? hv)]
      omega
  -- positions of the same object
  have hnat : ∀ a b : Nat, (((qs.map asReq).map Req.id)[a]? = ((qs.map asReq).map Req.id)[b]? ↔
      ((source T p vs).map (fun u => u .id))[a]? = ((source T p vs).map (fun u => u .id))[b]?) := by
    intro a b
    rw [hids]
    simp only [List.getElem?_map]
    cases ha : (source T p vs)[a]? with
    | none => cases hb : (source T p vs)[b]? <;> simp
    | some u =>
      cases hb : (source T p vs)[b]? with
      | none => simp
      | some w =>
        have hu := (rep_bounds (hrep u (List.mem_of_getElem? ha))).2.1.1
        have hw := (rep_bounds (hrep w (List.mem_of_getElem? hb))).2.1.1
        simp only [Option.map_some, Option.some.injEq]
        constructor
        · intro e
          have e : (u .id).toNat = (w .id).toNat := e
          omega
        · intro e; rw [e]
  have hnextAt : ∀ i j : Nat, NextAt ((qs.map asReq).map Req.id) i j ↔ NextAt ((source T p vs).map (fun u => u .id)) i j := by
    intro i j
    unfold NextAt
    rw [hnat]
    have hll : ((qs.map asReq).map Req.id).length = ((source T p vs).map (fun u => u .id)).length := by rw [hids]; simp
    rw [hll]
    refine ⟨fun ⟨a, b, c, d⟩ => ⟨a, b, c, fun m x y => by have := d m x y; rwa [ne_eq, hnat] at this⟩,
      fun ⟨a, b, c, d⟩ => ⟨a, b, c, fun m x y => by have := d m x y; rwa [ne_eq, ← hnat] at this⟩⟩
  have hann : Annotated (fun i => (i : Int) + 1) 0 (qs.map asReq) := by
    refine annotated_of (qs.map asReq) [] ?_
    intro i r _ hr
    rw [List.nil_append, List.getElem?_map] at hr
    cases hq : qs[i]? with
    | none => rw [hq] at hr; cases hr
    | some q =>
      rw [hq] at hr
      simp only [Option.map_some, Option.some.injEq] at hr
      obtain ⟨v, hv⟩ := hsome i q hq
      subst hr
      rw [List.nil_append]
      rcases (h6 i v q hv hq).2.2.2 with ⟨j, hj, e⟩ | ⟨hj, e⟩
      · exact Or.inl ⟨j, (hnextAt i j).2 hj, e⟩
      · exact Or.inr ⟨fun j hh => hj j ((hnextAt i j).1 hh), e⟩
  obtain ⟨hits, s, g1, _, g3⟩ := C18_optimal_Belady cs md sz (fun i => (i : Int) + 1) (qs.map asReq) (by omega) hfit hsm hmem hann
    (fun i j h => by omega) (by simp) (fun i hi => by rw [List.length_map, h5] at hi; omega)
  refine ⟨rd, out, rd2, qs, rd3, hits, s, h1, h2, h3, h4, g1, ?_⟩
  rw [← hids]
  exact g3

/-! ## cases -/

/-- three requests, two of them for object 10 -/
def abA : List (Fld → Int) :=
  [fun f => match f with | .time => 1 | .id => 10 | .size => 3 | _ => 0,
   fun f => match f with | .time => 2 | .id => 20 | .size => 5 | _ => 0,
   fun f => match f with | .time => 3 | .id => 10 | .size => 4 | _ => 0]

def T1 : TraceFormat := ⟨standardIQI, lIQI, [.time, .id, .size], fun _ => True, fun v => v, never, false⟩

/-- the hypotheses are met by this trace -/
example : T1 ∈ formats ∧ T1.File abA ∧ (∀ v ∈ source T1 defaultParams abA, Representable v) ∧ T1.NoZero true abA := by
  refine ⟨by simp [T1, formats], ⟨?_, by simp [abA]⟩, ?_, ?_⟩ <;>
    simp [abA, source, T1, lIQI, Fits, Representable, fits, shownSize, defaultParams, TraceFormat.NoZero, never]

/-- and what the tool writes: the first request points to request number 3 -/
example : (setup standardIQI (encodeAll lIQI abA) defaultParams >>= fun rd => convert (fun _ => 1) rd true) =
    .ok [1, 0, 0, 0, 10, 0, 0, 0, 0, 0, 0, 0, 3, 0, 0, 0, 3, 0, 0, 0, 0, 0, 0, 0,
         2, 0, 0, 0, 20, 0, 0, 0, 0, 0, 0, 0, 5, 0, 0, 0, 255, 255, 255, 255, 255, 255, 255, 255,
         3, 0, 0, 0, 10, 0, 0, 0, 0, 0, 0, 0, 3, 0, 0, 0, 255, 255, 255, 255, 255, 255, 255, 255] := by decide +kernel

/-- **C44** fails for a capped reader (`-n 2` of three requests): the loop stops after two requests and the count is not that of the trace -/
theorem C44_cap_fails : (setup standardIQI (encodeAll lIQI abA) { defaultParams with cap := 2 } >>= fun rd => convert (fun _ => 1) rd false) =
    .error .assertFail := by decide +kernel

/-- a cf1 record of 2^32 bytes -/
def huge : List (Fld → Int) := [fun f => match f with | .time => 1 | .id => 10 | .size => 4294967296 | _ => 0]

/-- **C44** fails for objects of 2^32 bytes: the converted size is 0 -/
theorem C44_size_fails : (setup cf1 (encodeAll lCf1 huge) defaultParams >>= fun rd => convert (fun _ => 1) rd false) =
    .ok [1, 0, 0, 0, 10, 0, 0, 0, 0, 0, 0, 0, 0, 0, 0, 0, 255, 255, 255, 255, 255, 255, 255, 255] := by decide +kernel

/-- **C44** fails for a wiki trace with a zero-size request, which the reader delivers over and over again backwards (C36): the tool aborts -/
theorem C44_wikiZero_fails : (setup wiki2019u (encodeAll lWiki19u Reader.withZero) defaultParams >>= fun rd => convert (fun _ => 1) rd false) =
    .error .abort := by decide +kernel

/-- **C44** fails for a trace with zero-size requests read back with the default options, which leave such requests out: the first request is said
to be followed by request number 3, but in what is read there are only two requests -/
theorem C44_zero_fails :
    (setup standardIQI (encodeAll lIQI [abA.head!, fun f => match f with | .time => 2 | .id => 20 | _ => 0, abA.head!]) defaultParams >>= fun rd =>
      convert (fun _ => 1) rd false >>= fun out => setup oracleGeneral out defaultParams >>= fun rd => seen (fun _ => 1) [.id, .next] rd) =
    .ok [[10, 3], [10, 9223372036854775807]] := by decide +kernel

/-- **C44** fails for a sampled trace none of whose objects is sampled: the status of the first read is not looked at, and one request that was
not sampled is written -/
theorem C44_sampled_fails : (setup standardIQI (encodeAll lIQI abA) { defaultParams with sampler := some (.spatial 2) } >>= fun rd => convert (fun _ => 1) rd false) =
    .ok [1, 0, 0, 0, 10, 0, 0, 0, 0, 0, 0, 0, 3, 0, 0, 0, 255, 255, 255, 255, 255, 255, 255, 255] := by decide +kernel

end Verif.Props.TraceConv
