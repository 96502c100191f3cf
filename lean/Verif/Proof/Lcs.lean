import Verif.Reader.Lcs
import Verif.Spec.Lcs
import Verif.Props.ReaderBin
import Verif.Proof.ReaderOps
/-!
# Reading lcs traces
-/

namespace Verif.Reader.Lcs
open Verif Verif.Reader Verif.Spec.Reader Verif.Spec.BinFmt Verif.Props.Reader

theorem leU_at {bs rest : List Nat} {off k v : Nat} (h : bs.drop off = leBytes k v ++ rest) (hv : v < 256 ^ k) (hk : 0 < k) : leU bs off k = .ok v := by
  have hlen : off ≤ bs.length := by
    apply Nat.le_of_lt
    apply Nat.lt_of_not_le
    intro hh
    rw [List.drop_eq_nil_of_le hh] at h
    have := congrArg List.length h
    simp [leBytes_length] at this
    omega
  have e : bs = bs.take off ++ leBytes k v ++ rest := by rw [List.append_assoc, ← h, List.take_append_drop]
  have := leU_leBytes k v (bs.take off) rest
  rw [← e, List.length_take, Nat.min_eq_left hlen, Nat.mod_eq_of_lt hv] at this
  exact this

theorem byte_at {bs rest : List Nat} {off v : Nat} (h : bs.drop off = v :: rest) : leU bs off 1 = .ok v := by
  have : bs[off]? = some v := by rw [← List.head?_drop, h]; rfl
  simp [leU, this, bind, Except.bind]

theorem drop_seg {a b : List Nat} {n : Nat} (m : Nat) (h : a.length = n) : (a ++ b).drop (n + m) = b.drop m := by
  rw [← h, List.drop_append, List.drop_eq_nil_of_le (by omega), Nat.add_sub_cancel_left, List.nil_append]

theorem letter_char {c : Char} (h : (letter c).isSome = true) : c.toNat ≠ 0 := by
  intro hc
  have : c = Char.ofNat 0 := by rw [← hc, Char.ofNat_toNat]
  subst this
  revert h
  decide

theorem calOffset_all : ∀ (l : List Char), (∀ c ∈ l, (letter c).isSome = true) → calOffset l l.length = some (Spec.Lcs.recordSize l)
  | [], _ => rfl
  | c :: l, h => by
    obtain ⟨⟨w, s⟩, hl⟩ := Option.isSome_iff_exists.1 (h c List.mem_cons_self)
    rw [List.length_cons, calOffset, (letter_size hl).1, calOffset_all l (fun x hx => h x (List.mem_cons_of_mem _ hx))]
    simp [Spec.Lcs.recordSize, hl]

theorem calOffset_some : ∀ (l : List Char), (∀ c ∈ l, (letter c).isSome = true) → ∀ n, n ≤ l.length → ∃ o, calOffset l n = some o
  | l, _, 0, _ => ⟨0, by cases l <;> rfl⟩
  | [], _, _ + 1, hn => by simp at hn
  | c :: l, h, n + 1, hn => by
    obtain ⟨⟨w, s⟩, hl⟩ := Option.isSome_iff_exists.1 (h c List.mem_cons_self)
    obtain ⟨o, ho⟩ := calOffset_some l (fun x hx => h x (List.mem_cons_of_mem _ hx)) n (by simpa using hn)
    exact ⟨w + o, by rw [calOffset, (letter_size hl).1, ho]⟩

theorem binLoads_some (l : List Char) (h : ∀ c ∈ l, (letter c).isSome = true) : ∀ fs : List (Fld × Nat), (∀ x ∈ fs, x.2 ≤ l.length) → ∃ ls, binLoads l fs = some ls
  | [], _ => ⟨[], rfl⟩
  | (f, i) :: fs, hf => by
    obtain ⟨ls, hls⟩ := binLoads_some l h fs (fun x hx => hf x (List.mem_cons_of_mem _ hx))
    rw [binLoads]
    by_cases hi : i = 0
    · rw [if_pos hi]; exact ⟨ls, hls⟩
    · rw [if_neg hi, hls]
      have hle : i ≤ l.length := hf (f, i) List.mem_cons_self
      have hlt : i - 1 < l.length := by omega
      obtain ⟨o, ho⟩ := calOffset_some l h (i - 1) (by omega)
      obtain ⟨⟨w, s⟩, hl⟩ := Option.isSome_iff_exists.1 (h _ (List.getElem_mem hlt))
      obtain ⟨e1, _, e3, e4⟩ := letter_size hl
      refine ⟨⟨f, o, w, true⟩ :: ls, ?_⟩
      unfold binLoad
      rw [List.getElem?_eq_getElem hlt, ho]
      simp only [e3, e4, or_self, if_false, e1]

theorem recordSize_pos {l : List Char} (h : ∀ c ∈ l, (letter c).isSome = true) (hne : l ≠ []) : 0 < Spec.Lcs.recordSize l := by
  cases l with
  | nil => exact absurd rfl hne
  | cons c l =>
    obtain ⟨⟨w, s⟩, hl⟩ := Option.isSome_iff_exists.1 (h c List.mem_cons_self)
    have := (letter_size hl).2.1
    simp [Spec.Lcs.recordSize, hl]
    omega

theorem letter_le {c : Char} {w : Nat} {s : Bool} (h : letter c = some (w, s)) : w ≤ 8 := by
  unfold letter at h
  split at h <;> first | (cases h; decide) | cases h

theorem recordSize_le : ∀ (l : List Char), Spec.Lcs.recordSize l ≤ 8 * l.length
  | [] => by simp [Spec.Lcs.recordSize]
  | c :: l => by
    have := recordSize_le l
    cases hl : letter c with
    | none => simp only [Spec.Lcs.recordSize, List.map_cons, hl, List.sum_cons, Option.map_none, Option.getD_none, List.length_cons] at this ⊢; omega
    | some x =>
      have := letter_le (show letter c = some (x.1, x.2) from hl)
      simp only [Spec.Lcs.recordSize, List.map_cons, hl, List.sum_cons, Option.map_some, Option.getD_some, List.length_cons] at *
      omega

theorem header_length {h : Spec.Lcs.Header} (ok : h.Ok) : h.bytes.length = 1024 := by
  have := ok.few
  simp only [Spec.Lcs.Header.bytes, List.length_append, leBytes_length, Spec.Lcs.padded, List.length_map, List.length_replicate, List.length_cons, List.length_nil, ok.reserved, ok.stats, ok.version]
  omega

/-- the format of the records -/
theorem fmt_of {h : Spec.Lcs.Header} (ok : h.Ok) : ∃ F, binFmt h.letters h.id h.time h.size h.op h.next = some F ∧ F.item = Spec.Lcs.recordSize h.letters ∧ F.skip = noSkip := by
  obtain ⟨ls, hls⟩ := binLoads_some h.letters ok.letters [(.id, h.id), (.time, h.time), (.size, h.size), (.op, h.op), (.next, h.next)] (by
    simp only [List.mem_cons, List.not_mem_nil, or_false, forall_eq_or_imp, forall_eq]
    exact ⟨ok.id.2, ok.time, ok.size, ok.op, ok.next⟩)
  have hp : Spec.Lcs.recordSize h.letters ≠ 0 := by
    have := recordSize_pos ok.letters (fun e => by have := ok.id; rw [e] at this; simp at this; omega)
    omega
  refine ⟨⟨Spec.Lcs.recordSize h.letters, ls, fun x => x, noSkip⟩, ?_, rfl, rfl⟩
  unfold binFmt
  have := ok.id.1
  rw [if_neg (by omega), hls, calOffset_all _ ok.letters]
  simp only
  rw [if_neg hp]

theorem readHeader_spec {h : Spec.Lcs.Header} (ok : h.Ok) (body : List Nat) :
    readHeader (h.bytes ++ body) 0 = .ok ⟨magic, '<' :: h.letters, h.id, h.size, h.time, h.next, h.op, h.letters.length, Spec.Lcs.recordSize h.letters, magic⟩ := by
  have few := ok.few
  have hpad : (Spec.Lcs.padded 240 ('<' :: h.letters)).length = 240 := by
    simp only [Spec.Lcs.padded, List.length_append, List.length_map, List.length_replicate, List.length_cons]; omega
  have e : h.bytes ++ body = leBytes 8 magic ++ (Spec.Lcs.padded 240 ('<' :: h.letters) ++ ([h.id, h.size, h.time, h.last, h.next, h.op, h.ttl, h.tenant, h.content] ++ (h.reserved ++ (h.stats ++
      (leBytes 4 h.letters.length ++ (leBytes 4 (Spec.Lcs.recordSize h.letters) ++ (h.version ++ (leBytes 8 magic ++ body)))))))) := by
    simp only [Spec.Lcs.Header.bytes, List.append_assoc]; rfl
  rw [e]
  generalize he1 : leBytes 8 magic ++ body = e1
  generalize he2 : h.version ++ e1 = e2
  generalize he3 : leBytes 4 (Spec.Lcs.recordSize h.letters) ++ e2 = e3
  generalize he4 : leBytes 4 h.letters.length ++ e3 = e4
  generalize he5 : h.reserved ++ (h.stats ++ e4) = e5
  generalize he6 : Spec.Lcs.padded 240 ('<' :: h.letters) ++ ([h.id, h.size, h.time, h.last, h.next, h.op, h.ttl, h.tenant, h.content] ++ e5) = e6
  have d0 : (leBytes 8 magic ++ e6).drop 0 = leBytes 8 magic ++ e6 := rfl
  have d8 : (leBytes 8 magic ++ e6).drop 8 = Spec.Lcs.padded 240 ('<' :: h.letters) ++ ([h.id, h.size, h.time, h.last, h.next, h.op, h.ttl, h.tenant, h.content] ++ e5) := by
    rw [show (8 : Nat) = 8 + 0 from rfl, drop_seg 0 (leBytes_length _ _), List.drop_zero, he6]
  have d248 : ∀ m, (leBytes 8 magic ++ e6).drop (248 + m) = ([h.id, h.size, h.time, h.last, h.next, h.op, h.ttl, h.tenant, h.content] ++ e5).drop m := fun m => by
    rw [show 248 + m = 8 + (240 + m) by omega, drop_seg _ (leBytes_length _ _), ← he6, drop_seg _ hpad]
  have d1000 : ∀ m, (leBytes 8 magic ++ e6).drop (1000 + m) = e4.drop m := fun m => by
    rw [show 1000 + m = 248 + (9 + (231 + (512 + m))) by omega, d248, drop_seg (n := 9) _ (by rfl), ← he5, drop_seg _ ok.reserved, drop_seg _ ok.stats]
  have d1004 : ∀ m, (leBytes 8 magic ++ e6).drop (1004 + m) = e3.drop m := fun m => by
    rw [show 1004 + m = 1000 + (4 + m) by omega, d1000, ← he4, drop_seg _ (leBytes_length _ _)]
  have d1016 : (leBytes 8 magic ++ e6).drop 1016 = leBytes 8 magic ++ body := by
    rw [show (1016 : Nat) = 1004 + (4 + (8 + 0)) from rfl, d1004, ← he3, drop_seg _ (leBytes_length _ _), ← he2, drop_seg _ ok.version, List.drop_zero, he1]
  have hstr : cString (leBytes 8 magic ++ e6) 8 = .ok (('<' :: h.letters).map Char.toNat) := by
    unfold cString
    rw [d8]
    have hne : ∀ b ∈ ('<' :: h.letters).map Char.toNat, b ≠ 0 := by
      intro b hb
      obtain ⟨c, hc, rfl⟩ := List.mem_map.1 hb
      rcases List.mem_cons.1 hc with rfl | hc
      · decide
      · exact letter_char (ok.letters c hc)
    obtain ⟨k, hk⟩ : ∃ k, 240 - ('<' :: h.letters).length = k + 1 := ⟨238 - h.letters.length, by simp only [List.length_cons]; omega⟩
    unfold Spec.Lcs.padded
    rw [hk, List.replicate_succ, if_pos (by simp), List.append_assoc, List.takeWhile_append_of_pos (by simpa using hne)]
    simp
  have hsz : Spec.Lcs.recordSize h.letters < 256 ^ 4 := by have := recordSize_le h.letters; omega
  have hchar : (('<' :: h.letters).map Char.toNat).map Char.ofNat = '<' :: h.letters := by
    rw [List.map_map]
    conv => rhs; rw [← List.map_id ('<' :: h.letters)]
    apply List.map_congr_left
    intro c _
    simp [Function.comp]
  unfold readHeader
  simp only [Nat.zero_add]
  rw [leU_at d0 (by decide) (by decide), Res.bind_ok, hstr, Res.bind_ok, byte_at (d248 0), Res.bind_ok, byte_at (d248 1), Res.bind_ok, byte_at (d248 2), Res.bind_ok, byte_at (d248 4), Res.bind_ok,
    byte_at (d248 5), Res.bind_ok, leU_at (show List.drop 1000 _ = leBytes 4 h.letters.length ++ e3 from (d1000 0).trans he4.symm) (by omega) (by decide), Res.bind_ok, leU_at (show List.drop 1004 _ = leBytes 4 (Spec.Lcs.recordSize h.letters) ++ e2 from (d1004 0).trans he3.symm) hsz (by decide), Res.bind_ok, leU_at d1016 (by decide) (by decide), Res.bind_ok, hchar]

theorem verify_spec {h : Spec.Lcs.Header} (ok : h.Ok) :
    verify ⟨magic, '<' :: h.letters, h.id, h.size, h.time, h.next, h.op, h.letters.length, Spec.Lcs.recordSize h.letters, magic⟩ = .ok () := by
  unfold verify
  have := ok.id
  simp only [List.length_cons, Nat.add_sub_cancel, List.drop_one, List.tail_cons]
  rw [calOffset_all _ ok.letters]
  simp
  omega

/-- an lcs file is opened like a binary trace with a header of 1024 bytes -/
theorem setup_spec {h : Spec.Lcs.Header} (ok : h.Ok) {F : Fmt} (hF : binFmt h.letters h.id h.time h.size h.op h.next = some F) (hi : F.item = Spec.Lcs.recordSize h.letters) (body : List Nat) (p : Params)
    (hp : p.start = 0) : setup (h.bytes ++ body) p = .ok (fresh F (h.bytes ++ body) { p with start := 1024 }) := by
  have hl : (h.bytes ++ body).length = 1024 + body.length := by rw [List.length_append, header_length ok]
  unfold setup
  rw [if_neg (by omega), if_neg (by omega), hp, readHeader_spec ok]
  rw [Res.bind_ok, verify_spec ok, Res.bind_ok]
  simp only [List.head?_cons, ne_eq, not_true_eq_false, if_false, List.drop_one, List.tail_cons, hF, hi]
  rfl

/-! ### the records -/

theorem records_length {letters : List Char} {rs : List (List Int)} {body : List Nat} (h : Spec.Lcs.Records letters rs body) (hl : ∀ c ∈ letters, (letter c).isSome = true) :
    body.length = rs.length * Spec.Lcs.recordSize letters := by
  induction h with
  | nil => simp
  | cons h1 _ ih =>
    have := rec_length h1
    rw [calOffset_all _ hl] at this
    injection this with this
    rw [List.length_append, ih, List.length_cons, Nat.add_mul]
    omega

theorem records_split {letters : List Char} : ∀ {pre : List (List Int)} {vs : List Int} {post : List (List Int)} {body : List Nat}, Spec.Lcs.Records letters (pre ++ vs :: post) body →
    ∃ b1 bs b2, body = b1 ++ bs ++ b2 ∧ Spec.Lcs.Records letters pre b1 ∧ Rec letters vs bs
  | [], vs, post, body, h => by
    cases h with
    | cons h1 h2 => exact ⟨[], _, _, rfl, .nil, h1⟩
  | a :: pre, vs, post, body, h => by
    cases h with
    | cons h1 h2 =>
      obtain ⟨b1, bs, b2, rfl, h3, h4⟩ := records_split h2
      exact ⟨_, bs, b2, by simp, .cons h1 h3, h4⟩

theorem storable_inDest {h : Spec.Lcs.Header} {f : Fld} (hf : f ∈ h.given) {v : Int} (hs : Spec.Lcs.Storable f v) : store f v = v := by
  unfold Spec.Lcs.Header.given Spec.Lcs.Header.fields at hf
  obtain ⟨x, hx, rfl⟩ := List.mem_map.1 hf
  have := (List.mem_filter.1 hx).1
  simp only [List.mem_cons, List.not_mem_nil, or_false] at this
  rcases this with rfl | rfl | rfl | rfl | rfl <;> exact store_id _ _ hs

theorem find_fields {l : List (Fld × Nat)} (hn : (l.map Prod.fst).Nodup) {f : Fld} {i : Nat} (hf : (f, i) ∈ l) : l.find? (fun x => x.1 = f) = some (f, i) := by
  induction l with
  | nil => simp at hf
  | cons a l ih =>
    rw [List.map_cons, List.nodup_cons] at hn
    rcases List.mem_cons.1 hf with rfl | hf
    · simp
    · have : a.1 ≠ f := fun e => hn.1 (e ▸ List.mem_map_of_mem (f := Prod.fst) hf)
      rw [List.find?_cons, decide_eq_false this]
      exact ih hn.2 hf

theorem fields_nodup (h : Spec.Lcs.Header) : (h.fields.map Prod.fst).Nodup := by
  have : (h.fields.map Prod.fst).Sublist ([(Fld.id, h.id), (.time, h.time), (.size, h.size), (.op, h.op), (.next, h.next)].map Prod.fst) := List.filter_sublist.map _
  exact this.nodup (by simp)

theorem id_given {h : Spec.Lcs.Header} (ok : h.Ok) : Fld.id ∈ h.given := by
  have := ok.id.1
  unfold Spec.Lcs.Header.given Spec.Lcs.Header.fields
  exact List.mem_map.2 ⟨(.id, h.id), List.mem_filter.2 ⟨by simp, by simp; omega⟩, rfl⟩

/-- the records of an lcs file -/
theorem lays {h : Spec.Lcs.Header} {rs : List (List Int)} {body : List Nat} (fl : Spec.Lcs.File h rs body) {F : Fmt} (hF : binFmt h.letters h.id h.time h.size h.op h.next = some F)
    (hi : F.item = Spec.Lcs.recordSize h.letters) (hk : F.skip = noSkip) :
    Lays F (h.bytes ++ body) 1024 (restrict h.given) (fun _ _ _ => false) (fun a => restrict h.given (a.set .size 1)) (fun a => (a .id).toNat) (rs.map (fun vs => restrict h.given (h.values vs))) := by
  have ok := fl.header
  refine ⟨?_, ?_, ?_, ?_, ?_, ?_⟩
  · rw [hi]
    exact recordSize_pos ok.letters (fun e => by have := ok.id; rw [e] at this; simp at this; omega)
  · rw [List.length_append, header_length ok, records_length fl.records ok.letters, List.length_map, hi]
  · intro pre a post e x
    obtain ⟨vp, rest, rfl, rfl, hrest⟩ := List.map_eq_append_iff.1 e
    obtain ⟨vs, vq, rfl, rfl, rfl⟩ := List.map_eq_cons_iff.1 hrest
    obtain ⟨b1, bs, b2, rfl, h1, h2⟩ := records_split fl.records
    obtain ⟨e1, y, e2, e3⟩ := C38_partial h.letters h.id h.time h.size h.op h.next F hF vs bs h2 (fl.half vs (by simp)) (h.bytes ++ b1) b2 x
    refine ⟨y, ?_, ?_⟩
    · rw [List.length_append, header_length ok, records_length h1 ok.letters] at e2
      rw [List.length_map, hi]
      simpa only [List.append_assoc] using e2
    · funext f
      unfold restrict
      by_cases hf : f ∈ h.given
      · rw [if_pos hf, if_pos hf]
        obtain ⟨⟨g, i⟩, hx, rfl⟩ := List.mem_map.1 hf
        have hx' := List.mem_filter.1 hx
        obtain ⟨v, hv, hy⟩ := e3 g i hx'.1 (by simpa using hx'.2)
        have hval : h.values vs g = v := by
          unfold Spec.Lcs.Header.values
          rw [find_fields (fields_nodup h) hx]
          simp [hv]
        have hs := fl.store vs (by simp) g hf
        rw [hval] at hs ⊢
        show y g = v
        rw [hy, storable_inDest hf hs]
      · rw [if_neg hf, if_neg hf]
  · intro iz fwd y; rw [hk]; rfl
  · intro y
    funext f
    unfold restrict Vals.set
    by_cases h1 : f ∈ h.given <;> by_cases h2 : f = .size <;> simp [h1, h2]
  · intro y; simp [restrict, id_given ok]

/-- what is seen from record `k` on -/
theorem seen_spec {h : Spec.Lcs.Header} {rs : List (List Int)} {body : List Nat} (fl : Spec.Lcs.File h rs body) {F : Fmt} (hF : binFmt h.letters h.id h.time h.size h.op h.next = some F)
    (hi : F.item = Spec.Lcs.recordSize h.letters) (hk : F.skip = noSkip) (hash : Nat → Nat) (p : Params) (hr : RatioOk p.sampler) {k : Nat} (hle : k ≤ rs.length) :
    seen hash h.given { fresh F (h.bytes ++ body) { p with start := 1024 } with off := 1024 + k * F.item } = .ok (Spec.Lcs.expect h hash p (rs.drop k)) := by
  have ok := fl.header
  have LL := lays fl hF hi hk
  generalize hrd : ({ fresh F (h.bytes ++ body) { p with start := 1024 } with off := 1024 + k * F.item } : Reader) = rd
  have hat : At F (h.bytes ++ body) 1024 (rs.map (fun vs => restrict h.given (h.values vs))) rd ((rs.take k).map (fun vs => restrict h.given (h.values vs)))
      ((rs.drop k).map (fun vs => restrict h.given (h.values vs))) := by
    subst hrd
    refine ⟨rfl, rfl, rfl, ?_, ?_⟩
    · rw [← List.map_append, List.take_append_drop]
    · rw [List.length_map, List.length_take, Nat.min_eq_left hle]
  have hsok : SOkO rd.sampler := by subst hrd; exact sok_fresh (F := F) (bytes := h.bytes ++ body) (p := { p with start := 1024 }) hr
  have rep : Rep F (h.bytes ++ body) 1024 _ (fun _ _ _ => false) rd (live (fun _ _ _ => false) rd _) := ⟨_, _, hat, rfl⟩
  obtain ⟨qs, rd', er, va, mm⟩ := readAll_spec LL hash (rd.bytes.length + 1) rd newRequest _ (by subst hrd; rfl) hsok rep (rep_length LL rep)
  unfold seen
  rw [er]
  simp only [Res.bind_ok]
  congr 1
  have hl : live (fun _ _ _ => false) rd ((rs.drop k).map (fun vs => restrict h.given (h.values vs))) = (capped p.cap 0 ((rs.drop k).map h.values)).map (restrict h.given) := by
    subst hrd
    unfold live
    rw [← capped_map, List.map_map]
    simp [fresh]
    rfl
  rw [hl, sampled_map] at mm
  have h1 : qs.map (fun q => h.given.map q.vals) = (qs.map (fun q => restrict h.given q.vals)).map (fun x => h.given.map x) := by
    rw [List.map_map]
    apply List.map_congr_left
    intro q _; exact (restrict_obs h.given q.vals).symm
  rw [h1, mm, List.map_map, List.map_map]
  unfold Spec.Lcs.expect expected
  rw [List.map_map]
  have hidr : ∀ y : Vals, ((restrict h.given y) .id).toNat = (y .id).toNat := by intro y; simp [restrict, id_given ok]
  simp only [hidr]
  have hs2 : rd.sampler = p.sampler.map Sampler.clone := by subst hrd; rfl
  have hnev : ((List.drop k rs).map h.values).map (fun v => v) = (List.drop k rs).map h.values := List.map_id' _
  rw [hs2, hnev]
  have hfil : ((List.drop k rs).map h.values).filter (fun v => !(p.ignoreZero && never v)) = (List.drop k rs).map h.values := by
    rw [List.filter_eq_self]
    intro v _
    simp [never]
  rw [hfil]
  apply List.map_congr_left
  intro y _
  have hig : rd.ignoreSize = p.ignoreSize := by subst hrd; rfl
  simp only [Function.comp]
  unfold shown shownSize
  rw [hig]
  split
  · rw [restrict_obs]
    apply List.map_congr_left
    intro f hf
    simp [Vals.set, restrict, hf]
  · exact restrict_obs h.given y

end Verif.Reader.Lcs
