import Verif.Proof.TextNav
import Mathlib.Data.List.Induction
/-!
# Reading a CSV file backwards
-/

namespace Verif.Text
open Verif Verif.Csv Verif.CLib Verif.Spec.Csv Verif.Spec.Text
open Verif.Reader (Request Vals Fld sWrap newRequest)

/-- a line of a file: its bytes, its fields, what it says -/
structure Entry where
  raw : List Nat
  fs : List (List Nat)
  x : Item

/-- how an entry is written -/
structure Entry.Ok (hash : List Nat → Nat) (d : Nat) (p : Params) (e : Entry) : Prop where
  wr : ∃ t n, e.raw = t ++ n ∧ WrittenRow d 34 e.fs t ∧ 10 ∉ t ∧ ¬ Blanks d t ∧ (LineEnd n ∨ n = [])
  row : RowSays hash p e.fs e.x

/-- the bytes of some lines -/
def flat (l : List Entry) : List Nat := l.flatMap (·.raw)

theorem flat_append (l m : List Entry) : flat (l ++ m) = flat l ++ flat m := by simp [flat]
theorem flat_cons (e : Entry) (m : List Entry) : flat (e :: m) = e.raw ++ flat m := by simp [flat]

/-- a file: `H` bytes of header, then the lines of the table -/
structure Table (hash : List Nat → Nat) (d : Nat) (p : Params) (bytes : List Nat) (start : Nat) (T : List Entry) : Prop where
  split : ∃ H, bytes = H ++ flat T ∧ H.length = start
  ok : ∀ e ∈ T, e.Ok hash d p ∧ Steppable e.raw
  ends : ∀ L e M, T = L ++ e :: M → M ≠ [] → e.raw.getLast? = some 10
  noNul : 0 ∉ bytes

theorem Table.before {hash : List Nat → Nat} {d : Nat} {p : Params} {bytes : List Nat} {start : Nat} {L M : List Entry} {e : Entry}
    (h : Table hash d p bytes start (L ++ e :: M)) :
    ∃ a, bytes = a ++ (e.raw ++ flat M) ∧ a.length = start + (flat L).length ∧ LineStart start a ∧ 0 ∉ a := by
  obtain ⟨H, hb, hH⟩ := h.split
  refine ⟨H ++ flat L, ?_, ?_, ?_, ?_⟩
  · rw [hb, flat_append, flat_cons]
    simp
  · rw [List.length_append, hH]
  · rcases List.eq_nil_or_concat L with rfl | ⟨L', y, rfl⟩
    · left
      simp [flat, hH]
    · right
      have hy : y.raw.getLast? = some 10 := h.ends L' y (e :: M) (by simp) (by simp)
      have hne : y.raw ≠ [] := by intro h0; rw [h0] at hy; cases hy
      rw [List.concat_eq_append, flat_append, flat_cons]
      have hf : flat [] = [] := rfl
      rw [hf, List.append_nil]
      have hpos := List.length_pos_iff.2 hne
      constructor
      · simp only [List.length_append, hH]
        omega
      · rw [← List.append_assoc, List.getLast?_append_of_ne_nil _ hne]
        exact hy
  · intro hm
    refine h.noNul ?_
    rw [hb, flat_append, ← List.append_assoc]
    exact List.mem_append_left _ hm

/-- a request that shows a row, up to its size if sizes are ignored -/
def Got (p : Params) (x : Item) (q : Request) : Prop := q.vals .time = x.time ∧ q.vals .id = x.id ∧ (p.ignoreSize = false → q.vals .size = x.size)

theorem Got.size {p : Params} {x : Item} {q : Request} (h : Got p x q) (b : Bool) (hb : b = p.ignoreSize) :
    Got p x (if b then { q with vals := q.vals.set .size 1 } else q) ∧ shown (if b then { q with vals := q.vals.set .size 1 } else q) = seen p x := by
  subst hb
  unfold shown seen
  cases hi : p.ignoreSize with
  | true =>
    simp only [if_true]
    refine ⟨⟨?_, ?_, ?_⟩, ?_⟩
    · show (q.vals.set .size 1) .time = _
      rw [set_other (f := .size) (g := .time) _ _ (by decide), h.1]
    · show (q.vals.set .size 1) .id = _
      rw [set_other (f := .size) (g := .id) _ _ (by decide), h.2.1]
    · intro h0; rw [hi] at h0; cases h0
    · rw [set_other (f := .size) (g := .time) _ _ (by decide), set_other (f := .size) (g := .id) _ _ (by decide), set_same, h.1, h.2.1]
  | false =>
    simp only [Bool.false_eq_true, if_false]
    refine ⟨h, ?_⟩
    rw [h.1, h.2.1, h.2.2 hi]

/-- a backward reader whose position is after the lines `L` -/
structure After (d : Nat) (p : Params) (bytes : List Nat) (start : Nat) (L : List Entry) (rd : TReader) : Prop where
  at_ : ∃ c, At d p false rd c (bytes.drop (start + (flat L).length))
  pos : rd.pos = start + (flat L).length
  left : rd.nLeft = 0
  bytes : rd.bytes = bytes
  start : rd.start = start

theorem After.move {d : Nat} {p : Params} {bytes : List Nat} {start : Nat} {L L' : List Entry} {rd : TReader} (h : After d p bytes start L rd) (n : Nat) :
    After d p bytes start L' { rd with pos := start + (flat L').length, nRead := n } := by
  obtain ⟨c, ha⟩ := h.at_
  refine ⟨⟨c, ha.csv, ha.fresh, ha.idx, ha.fields, ha.conf, ?_, ha.mmap, ha.fwd⟩, rfl, h.left, h.bytes, h.start⟩
  show rd.bytes.drop _ = _
  rw [h.bytes]

theorem back_to {hash : List Nat → Nat} {d : Nat} {p : Params} {bytes : List Nat} {start : Nat} {L M : List Entry} {e : Entry} (h : Table hash d p bytes start (L ++ e :: M))
    {rd : TReader} (ha : After d p bytes start (L ++ [e]) rd) : goBackOne rd = .ok (0, { rd with pos := start + (flat L).length }) := by
  obtain ⟨a, hb, hl, hs, h0⟩ := h.before
  have hst := (h.ok e (by simp)).2
  have hpos : rd.pos = a.length + e.raw.length := by
    rw [ha.pos, hl, flat_append, flat_cons]
    simp only [List.length_append, flat, List.flatMap_nil, List.length_nil]
    omega
  have := goBack_line (rd := rd) (a := a) (r := e.raw) (by
    rw [ha.bytes, hb, hpos, ← List.append_assoc, ← List.length_append, List.take_left]) hpos (by rw [ha.start]; exact hs) hst h0
  rw [this, hl]

theorem back_start {d : Nat} {p : Params} {bytes : List Nat} {start : Nat} {rd : TReader} (ha : After d p bytes start [] rd) : goBackOne rd = .ok (1, rd) := by
  refine goBack_start ?_
  rw [ha.pos, ha.start]
  simp [flat]

/-- the row after the lines `L` -/
theorem row_at {hash : List Nat → Nat} {d : Nat} {p : Params} (hd : Distinct p) (hc : Chars d 34) {bytes : List Nat} {start : Nat} {L M : List Entry} {e : Entry}
    (h : Table hash d p bytes start (L ++ e :: M)) (h0 : p.cntField = 0) {rd : TReader} (ha : After d p bytes start L rd) {q : Request} (hq : Keeps p q) :
    ∃ c rd' q', rd.csv = some c ∧ csvRow hash rd c q = .ok (some (rd', q')) ∧ After d p bytes start (L ++ [e]) rd' ∧ Holds e.x q' ∧ q'.valid = q.valid ∧ Keeps p q' := by
  obtain ⟨c, hat⟩ := ha.at_
  obtain ⟨a, hb, hl, _, _⟩ := h.before
  obtain ⟨⟨⟨t, n, hr, hw, ht, hbl, hn⟩, hsays⟩, hst⟩ := h.ok e (by simp)
  have hdrop : bytes.drop (start + (flat L).length) = e.raw ++ flat M := by rw [hb, ← hl, List.drop_left]
  rw [hdrop] at hat
  have hrest := hat.rest
  have hgp : getline rd.bytes rd.pos = some e.raw ∧ ∃ r u k, parse c.parser e.raw = .ok r ∧ fini r.2 = .ok u ∧ r.1 ++ u.1 = rowEvents e.fs k ∧ Fresh d u.2 := by
    rcases hn with hn | rfl
    · rw [hr] at hrest ⊢
      exact ⟨getline_row hrest ht hn, parse_line hat.fresh hc hw hbl hn⟩
    · rw [List.append_nil] at hr
      have hM : M = [] := by
        by_contra hM
        have := h.ends L e M rfl hM
        rw [hr] at this
        exact ht (List.mem_of_getLast? this)
      subst hM
      have hf : flat ([] : List Entry) = [] := rfl
      rw [hf, List.append_nil, hr] at hrest
      have hne : t ≠ [] := by
        rintro rfl
        exact hbl (by intro c hc; simp at hc)
      rw [hr]
      exact ⟨getline_last hrest hne ht, parse_last hat.fresh hc hw hbl⟩
  obtain ⟨c', rd', q', g1, g2, g3, g4, g5, g6, g7, g8, g9, g10⟩ := row_step (rest := flat M) hd hsays hat hq (fun _ => ha.left) hgp.1 rfl hgp.2
  have hlen : (flat (L ++ [e])).length = (flat L).length + e.raw.length := by
    rw [flat_append, flat_cons]
    simp [flat]
  refine ⟨c, rd', q', hat.csv, g1, ⟨⟨c', ?_⟩, ?_, ?_, g8.trans ha.bytes, g9.trans ha.start⟩, g3, g4, g5⟩
  · have hcnt : e.x.cnt = 1 := by have := hsays.cnt; rwa [if_pos h0] at this
    have e2 : bytes.drop (start + (flat (L ++ [e])).length) = flat M := by
      rw [hlen, ← Nat.add_assoc, ← List.drop_drop, hdrop, List.drop_left]
    rw [e2]
    exact g2
  · rw [g10, ha.pos, hlen]
    omega
  · have hcnt : e.x.cnt = 1 := by have := hsays.cnt; rwa [if_pos h0] at this
    rw [g6, hcnt]
    rfl

/-- the nearest kept line at or above a line -/
def Nearest (hash : List Nat → Nat) (d : Nat) (p : Params) (bytes : List Nat) (start : Nat) (A : List Entry) (out : Res (Int × TReader × Request)) : Prop :=
  ((∀ y ∈ A, dropped p y.x = true) ∧ ∃ rd' q', out = .ok (1, rd', q')) ∨
  ∃ L1 e1 L2 rd' q', A = L1 ++ e1 :: L2 ∧ (∀ y ∈ L2, dropped p y.x = true) ∧ dropped p e1.x = false ∧ out = .ok (0, rd', q') ∧
    After d p bytes start (L1 ++ [e1]) rd' ∧ Got p e1.x q' ∧ q'.valid = true ∧ Keeps p q'

theorem readWith_at {hash : List Nat → Nat} {d : Nat} {p : Params} (hcap : p.cap ≤ 1) {bytes : List Nat} {start : Nat} {L A : List Entry} {rd : TReader}
    (ha : After d p bytes start L rd) {q : Request} (hq : Keeps p q) {body : TReader → Request → Res (Int × TReader × Request)}
    (hbody : ∀ rd q, After d p bytes start L rd → Keeps p q → q.valid = true → Nearest hash d p bytes start A (body rd q)) :
    Nearest hash d p bytes start A (readWith body rd q) ∧ ∀ rd' q', readWith body rd q = .ok (0, rd', q') → ∀ x, Got p x q' → shown q' = seen p x := by
  obtain ⟨c, hat⟩ := ha.at_
  have hq0 : Keeps p { vals := q.vals.set .ttl (-1), hv := 0, valid := true } :=
    ⟨fun h0 => (set_other (f := .ttl) (g := .time) q.vals (-1) (by decide)).trans (hq.1 h0), fun h0 => (set_other (f := .ttl) (g := .size) q.vals (-1) (by decide)).trans (hq.2 h0)⟩
  have hone : readWith body rd q = (body { rd with nRead := rd.nRead + 1 } { vals := q.vals.set .ttl (-1), hv := 0, valid := true } >>= fun r =>
      .ok (r.1, r.2.1, if r.2.1.ignoreSize then { r.2.2 with vals := r.2.2.vals.set .size 1 } else r.2.2)) := by
    unfold readWith
    rw [if_neg (by have := hat.mmap; omega), if_neg (by rw [hat.conf.2.2.2]; omega), if_neg (by rw [ha.left]; decide)]
  have hmv : After d p bytes start L { rd with nRead := rd.nRead + 1 } := by
    have := ha.move (L' := L) (rd.nRead + 1)
    rwa [← ha.pos] at this
  rw [hone]
  rcases hbody _ _ hmv hq0 rfl with ⟨h1, rd', q', h2⟩ | ⟨L1, e1, L2, rd', q', h1, h2, h3, h4, h5, h6, h7, h8⟩
  · rw [h2, Res.bind_ok]
    exact ⟨.inl ⟨h1, _, _, rfl⟩, fun rd' q' h => by cases h⟩
  · rw [h4, Res.bind_ok]
    obtain ⟨c', hat'⟩ := h5.at_
    have hi := hat'.conf.2.2.1
    have hg := h6.size rd'.ignoreSize hi
    refine ⟨.inr ⟨L1, e1, L2, rd', _, h1, h2, h3, rfl, h5, hg.1, ?_, keeps_size h8 _⟩, ?_⟩
    · simp only
      split <;> exact h7
    · intro rd'' q'' heq x hx
      simp only [Except.ok.injEq, Prod.mk.injEq, true_and] at heq
      obtain ⟨rfl, rfl⟩ := heq
      rw [hg.2]
      unfold seen
      unfold Got at hx
      have hg1 := hg.1
      unfold Got at hg1
      rw [← hg1.1, ← hg1.2.1, hx.1, hx.2.1]
      cases hi2 : p.ignoreSize with
      | true => rfl
      | false =>
        rw [← hg1.2.2 hi2, hx.2.2 hi2]

/-- reading the line after `L` backwards -/
theorem csvRead_back {hash : List Nat → Nat} {d : Nat} {p : Params} (hd : Distinct p) (hc : Chars d 34) (h0 : p.cntField = 0) (hcap : p.cap ≤ 1) {bytes : List Nat} {start : Nat} (L : List Entry) :
    ∀ (e : Entry) (M : List Entry), Table hash d p bytes start (L ++ e :: M) → ∀ (fuel : Nat), L.length < fuel → ∀ (rd : TReader) (q : Request), After d p bytes start L rd → Keeps p q →
      q.valid = true → Nearest hash d p bytes start (L ++ [e]) (csvRead hash fuel rd q) := by
  induction L using List.reverseRecOn with
  | nil =>
    intro e M hT fuel hf rd q ha hq hv
    cases fuel with
    | zero => omega
    | succ fuel =>
      obtain ⟨c, rd', q', g1, g2, g3, g4, g5, g6⟩ := row_at hd hc hT h0 ha hq
      obtain ⟨c', hat'⟩ := g3.at_
      have hdr : (q'.vals .size = 0 ∧ rd'.ignoreZero = true) ↔ dropped p e.x = true := by
        rw [g4.2.2, hat'.conf.2.1]
        unfold dropped
        simp only [Bool.and_eq_true, decide_eq_true_eq]
        constructor
        · rintro ⟨a, b⟩; exact ⟨b, by omega⟩
        · rintro ⟨a, b⟩; exact ⟨by omega, a⟩
      unfold csvRead
      rw [g1]
      simp only
      rw [g2, Res.bind_ok]
      simp only
      cases hdx : dropped p e.x with
      | true =>
        rw [if_pos (hdr.2 hdx), if_neg (by rw [hat'.fwd]; decide), if_neg (by rw [g3.left]; decide)]
        have hb1 := back_to (L := []) hT g3
        have hb2 := back_start (g3.move (L' := []) rd'.nRead)
        unfold goBackTwo
        rw [hb1, Res.bind_ok]
        simp only [if_true]
        rw [hb2, Res.bind_ok]
        exact .inl ⟨by intro y hy; simp only [List.nil_append, List.mem_singleton] at hy; rw [hy]; exact hdx, _, _, rfl⟩
      | false =>
        rw [if_neg (fun h => by rw [hdr.1 h] at hdx; cases hdx), if_neg (by rw [g3.left]; decide)]
        exact .inr ⟨[], e, [], rd', q', rfl, by simp, hdx, rfl, g3, ⟨g4.1, g4.2.1, fun _ => g4.2.2⟩, g5.trans hv, g6⟩
  | append_singleton L e' ih =>
    intro e M hT fuel hf rd q ha hq hv
    cases fuel with
    | zero => omega
    | succ fuel =>
      obtain ⟨c, rd', q', g1, g2, g3, g4, g5, g6⟩ := row_at hd hc hT h0 ha hq
      obtain ⟨c', hat'⟩ := g3.at_
      have hdr : (q'.vals .size = 0 ∧ rd'.ignoreZero = true) ↔ dropped p e.x = true := by
        rw [g4.2.2, hat'.conf.2.1]
        unfold dropped
        simp only [Bool.and_eq_true, decide_eq_true_eq]
        constructor
        · rintro ⟨a, b⟩; exact ⟨b, by omega⟩
        · rintro ⟨a, b⟩; exact ⟨by omega, a⟩
      unfold csvRead
      rw [g1]
      simp only
      rw [g2, Res.bind_ok]
      simp only
      cases hdx : dropped p e.x with
      | true =>
        rw [if_pos (hdr.2 hdx), if_neg (by rw [hat'.fwd]; decide), if_neg (by rw [g3.left]; decide)]
        have hT' : Table hash d p bytes start (L ++ e' :: e :: M) := by
          have : L ++ e' :: e :: M = L ++ [e'] ++ e :: M := by simp
          rw [this]; exact hT
        have hb1 := back_to hT g3
        have hb2 := back_to hT' (g3.move (L' := L ++ [e']) rd'.nRead)
        unfold goBackTwo
        rw [hb1, Res.bind_ok]
        simp only [if_true]
        rw [hb2, Res.bind_ok]
        simp only [if_true]
        have ha2 := g3.move (L' := L) rd'.nRead
        have hn := (readWith_at hcap ha2 g6 (A := L ++ [e']) (body := csvRead hash fuel)
          (fun rd q h1 h2 h3 => ih e' (e :: M) hT' fuel (by simp only [List.length_append, List.length_cons, List.length_nil] at hf; omega) rd q h1 h2 h3)).1
        rcases hn with ⟨h1, h2⟩ | ⟨L1, e1, L2, rd1, q1, k1, k2, k3, k4, k5, k6, k7, k8⟩
        · refine .inl ⟨?_, h2⟩
          intro y hy
          rcases List.mem_append.1 hy with hy | hy
          · exact h1 y hy
          · simp only [List.mem_singleton] at hy
            rw [hy]; exact hdx
        · refine .inr ⟨L1, e1, L2 ++ [e], rd1, q1, ?_, ?_, k3, k4, k5, k6, k7, k8⟩
          · rw [k1]; simp
          · intro y hy
            rcases List.mem_append.1 hy with hy | hy
            · exact k2 y hy
            · simp only [List.mem_singleton] at hy
              rw [hy]; exact hdx
      | false =>
        rw [if_neg (fun h => by rw [hdr.1 h] at hdx; cases hdx), if_neg (by rw [g3.left]; decide)]
        exact .inr ⟨L ++ [e'], e, [], rd', q', rfl, by simp, hdx, rfl, g3, ⟨g4.1, g4.2.1, fun _ => g4.2.2⟩, g5.trans hv, g6⟩

theorem raw_le {hash : List Nat → Nat} {d : Nat} {p : Params} {bytes : List Nat} {start : Nat} {T : List Entry} (h : Table hash d p bytes start T) : T.length ≤ bytes.length := by
  obtain ⟨H, hb, _⟩ := h.split
  have : ∀ T : List Entry, (∀ e ∈ T, 1 ≤ e.raw.length) → T.length ≤ (flat T).length := by
    intro T
    induction T with
    | nil => simp
    | cons e T ih =>
      intro hT
      have h1 := hT e (by simp)
      have h2 := ih (fun x hx => hT x (List.mem_cons_of_mem _ hx))
      rw [flat_cons]
      simp only [List.length_cons, List.length_append]
      omega
  have h1 := this T (fun e he => by have := (h.ok e he).2.two; omega)
  rw [hb, List.length_append]
  omega

theorem readOne_at {hash : List Nat → Nat} {d : Nat} {p : Params} (hd : Distinct p) (hc : Chars d 34) (h0 : p.cntField = 0) (hcap : p.cap ≤ 1) {bytes : List Nat} {start : Nat} {L M : List Entry} {e : Entry}
    (hT : Table hash d p bytes start (L ++ e :: M)) {rd : TReader} {q : Request} (ha : After d p bytes start L rd) (hq : Keeps p q) :
    Nearest hash d p bytes start (L ++ [e]) (readOne hash rd q) ∧ ∀ rd' q', readOne hash rd q = .ok (0, rd', q') → ∀ x, Got p x q' → shown q' = seen p x := by
  obtain ⟨c, hat⟩ := ha.at_
  have : readOne hash rd q = readWith (csvRead hash (rd.bytes.length + 2)) rd q := by
    unfold readOne
    rw [hat.csv]
    rfl
  rw [this]
  refine readWith_at hcap ha hq ?_
  intro rd1 q1 h1 h2 h3
  refine csvRead_back hd hc h0 hcap L e M hT _ ?_ rd1 q1 h1 h2 h3
  have := raw_le hT
  simp only [List.length_append, List.length_cons] at this
  rw [ha.bytes]
  omega

/-- the kept rows -/
def kept (p : Params) (l : List Entry) : List (Int × Int × Int) := (l.filter (fun e => !dropped p e.x)).map (fun e => seen p e.x)

theorem kept_append (p : Params) (l m : List Entry) : kept p (l ++ m) = kept p l ++ kept p m := by simp [kept]

theorem kept_dropped {p : Params} {l : List Entry} (h : ∀ y ∈ l, dropped p y.x = true) : kept p l = [] := by
  unfold kept
  rw [List.map_eq_nil_iff, List.filter_eq_nil_iff]
  intro e he
  rw [h e he]
  decide

theorem kept_split {p : Params} {L1 L2 : List Entry} {e : Entry} (h : ∀ y ∈ L2, dropped p y.x = true) (he : dropped p e.x = false) :
    kept p (L1 ++ e :: L2) = kept p L1 ++ [seen p e.x] := by
  have : L1 ++ e :: L2 = L1 ++ [e] ++ L2 := by simp
  rw [this, kept_append, kept_append, kept_dropped h, List.append_nil]
  congr 1
  unfold kept
  rw [List.filter_cons, he]
  rfl

theorem readUp_ok {hash : List Nat → Nat} {d : Nat} {p : Params} (hd : Distinct p) (hc : Chars d 34) (h0 : p.cntField = 0) (hcap : p.cap ≤ 1) {bytes : List Nat} {start : Nat} (n : Nat) :
    ∀ (L : List Entry), L.length = n → ∀ (e : Entry) (M : List Entry), Table hash d p bytes start (L ++ e :: M) → ∀ (fuel : Nat), L.length < fuel → ∀ (rd : TReader) (q : Request),
      After d p bytes start (L ++ [e]) rd → Keeps p q → ∃ rs, readUp hash fuel rd q = .ok rs ∧ rs.map shown = (kept p L).reverse ∧ ∀ r ∈ rs, r.valid = true := by
  induction n using Nat.strongRecOn with
  | ind n ih =>
    intro L hL e M hT fuel hf rd q ha hq
    cases fuel with
    | zero => omega
    | succ fuel =>
      have hb1 := back_to hT ha
      rcases List.eq_nil_or_concat L with rfl | ⟨L', e', rfl⟩
      · have hb2 := back_start (ha.move (L' := []) rd.nRead)
        refine ⟨[], ?_, rfl, by simp⟩
        unfold readUp readAbove goBackTwo
        rw [if_neg (by rw [ha.left]; decide), hb1, Res.bind_ok]
        simp only [if_true]
        rw [hb2]
        rfl
      · rw [List.concat_eq_append] at *
        have hT' : Table hash d p bytes start (L' ++ e' :: e :: M) := by
          have : L' ++ e' :: e :: M = L' ++ [e'] ++ e :: M := by simp
          rw [this]; exact hT
        have hb2 := back_to hT' (ha.move (L' := L' ++ [e']) rd.nRead)
        have hone := readOne_at hd hc h0 hcap hT' (ha.move (L' := L') rd.nRead) hq
        have habove : readAbove hash rd q = readOne hash { rd with pos := start + (flat L').length } q := by
          unfold readAbove goBackTwo
          rw [if_neg (by rw [ha.left]; decide), hb1, Res.bind_ok]
          simp only [if_true]
          rw [hb2, Res.bind_ok]
          rfl
        unfold readUp
        rw [habove]
        rcases hone.1 with ⟨k1, rd', q', k2⟩ | ⟨L1, e1, L2, rd', q', k1, k2, k3, k4, k5, k6, k7, k8⟩
        · have k2 : readOne hash { rd with pos := start + (flat L').length } q = .ok (1, rd', q') := k2
          rw [k2, Res.bind_ok]
          exact ⟨[], rfl, by rw [kept_dropped k1]; rfl, by simp⟩
        · have k4 : readOne hash { rd with pos := start + (flat L').length } q = .ok (0, rd', q') := k4
          have hs := hone.2 rd' q' k4 e1.x k6
          rw [k4, Res.bind_ok]
          simp only [ne_eq, not_true_eq_false, if_false]
          have hlt : L1.length < n := by
            rw [← hL, k1]
            simp only [List.length_append, List.length_cons]
            omega
          have hT1 : Table hash d p bytes start (L1 ++ e1 :: (L2 ++ e :: M)) := by
            have : L1 ++ e1 :: (L2 ++ e :: M) = L' ++ [e'] ++ e :: M := by rw [k1]; simp
            rw [this]; exact hT
          obtain ⟨rs, r1, r2, r3⟩ := ih L1.length hlt L1 rfl e1 _ hT1 fuel (by omega) rd' q' k5 k8
          rw [r1, Res.bind_ok]
          refine ⟨_, rfl, ?_, ?_⟩
          · rw [List.map_cons, r2, hs, k1, kept_split k2 k3]
            simp
          · intro r hr
            rcases List.mem_cons.1 hr with rfl | hr
            · exact k7
            · exact r3 r hr

theorem readBackward_ok {hash : List Nat → Nat} {d : Nat} {p : Params} (hd : Distinct p) (hc : Chars d 34) (h0 : p.cntField = 0) (hcap : p.cap ≤ 1) {bytes : List Nat} {start : Nat} {L : List Entry} {e : Entry}
    (hT : Table hash d p bytes start (L ++ [e])) {rd : TReader} {c : CsvParams} {rest : List Nat} (ha : At d p true rd c rest) (hn : rd.nLeft = 0) (hby : rd.bytes = bytes) (hst : rd.start = start)
    {a w : List Nat} {x y : Nat} (htext : e.raw = a ++ x :: y :: w) (hx : x ≠ 10) (hy : isSpace y = false) (hw : ∀ c ∈ w, isSpace c = true)
    (hk : ∃ y ∈ L ++ [e], dropped p y.x = false) {fuel : Nat} (hf : (L ++ [e]).length < fuel) :
    ∃ rs, readBackward hash fuel rd newRequest = .ok rs ∧ rs.map shown = (kept p (L ++ [e])).reverse ∧ ∀ r ∈ rs, r.valid = true := by
  obtain ⟨a0, hb, hl, hs, hz⟩ := hT.before
  have hst2 := (hT.ok e (by simp)).2
  have hf0 : flat ([] : List Entry) = [] := rfl
  rw [hf0, List.append_nil] at hb
  have hrb : rd.bytes = (a0 ++ a ++ [x]) ++ y :: w := by rw [hby, hb, htext]; simp
  have h1 := setPos_end (rd := { rd with fwd := false }) (p := a0 ++ a ++ [x]) (c := y) (w := w) hrb hy hw
  have hstep : Steppable (a ++ [x, y]) := by
    have hsh := hst2.short
    have hlf := hst2.noLF
    have hnn := hst2.noNul
    rw [htext] at hsh hlf hnn
    refine ⟨by simp, ?_, ?_, ?_⟩
    · simp only [List.length_append, List.length_cons, List.length_nil] at hsh ⊢
      omega
    · have e1 : (a ++ [x, y]).dropLast = a ++ [x] := by
        have : a ++ [x, y] = (a ++ [x]) ++ [y] := by simp
        rw [this, List.dropLast_concat]
      rw [e1]
      intro hm
      rcases List.mem_append.1 hm with hm | hm
      · refine hlf ?_
        rw [List.dropLast_append_of_ne_nil (by simp)]
        exact List.mem_append_left _ hm
      · simp only [List.mem_singleton] at hm
        exact hx hm.symm
    · intro hm
      refine hnn ?_
      have : a ++ x :: y :: w = a ++ [x, y] ++ w := by simp
      rw [this]
      exact List.mem_append_left _ hm
  have hpos : (a0 ++ a ++ [x]).length + 1 = a0.length + (a ++ [x, y]).length := by
    simp only [List.length_append, List.length_cons, List.length_nil]
    omega
  have h2 := goBack_line (rd := { rd with fwd := false, pos := (a0 ++ a ++ [x]).length + 1 }) (a := a0) (r := a ++ [x, y]) (by
    show rd.bytes.take ((a0 ++ a ++ [x]).length + 1) = _
    rw [hpos, ← List.length_append]
    have : rd.bytes = (a0 ++ (a ++ [x, y])) ++ w := by rw [hrb]; simp
    rw [this, List.take_left]) hpos (by rw [← hst] at hs; exact hs) hstep hz
  have hkeep : Keeps p newRequest := ⟨fun _ => rfl, fun _ => rfl⟩
  have haf : After d p bytes start L { rd with fwd := false, pos := start + (flat L).length } := by
    refine ⟨⟨c, ha.csv, ha.fresh, ha.idx, ha.fields, ha.conf, ?_, ha.mmap, rfl⟩, rfl, hn, hby, hst⟩
    show rd.bytes.drop _ = _
    rw [hby]
  have hone := readOne_at hd hc h0 hcap hT haf hkeep
  unfold readBackward
  have h1 : setPos { rd with fwd := false } rd.bytes.length = .ok { rd with fwd := false, pos := (a0 ++ a ++ [x]).length + 1 } := h1
  rw [h1, Res.bind_ok, h2, Res.bind_ok]
  simp only
  rw [hl]
  rcases hone.1 with ⟨k1, _⟩ | ⟨L1, e1, L2, rd', q', k1, k2, k3, k4, k5, k6, k7, k8⟩
  · obtain ⟨z, hz1, hz2⟩ := hk
    rw [k1 z hz1] at hz2
    cases hz2
  · have hs' := hone.2 rd' q' k4 e1.x k6
    rw [k4, Res.bind_ok]
    have hT1 : Table hash d p bytes start (L1 ++ e1 :: L2) := by rw [← k1]; exact hT
    obtain ⟨rs, r1, r2, r3⟩ := readUp_ok hd hc h0 hcap L1.length L1 rfl e1 L2 hT1 fuel (by rw [k1] at hf; simp only [List.length_append, List.length_cons] at hf; omega) rd' q' k5 k8
    simp only
    rw [r1, Res.bind_ok]
    refine ⟨_, rfl, ?_, ?_⟩
    · rw [List.map_cons, r2, hs', k1, kept_split k2 k3]
      simp
    · intro r hr
      rcases List.mem_cons.1 hr with rfl | hr
      · exact k7
      · exact r3 r hr

/-- `reader_set_read_pos(1.0)` and a step back lead to the last line -/
theorem last_pos {hash : List Nat → Nat} {d : Nat} {p : Params} {bytes : List Nat} {start : Nat} {L : List Entry} {e : Entry}
    (hT : Table hash d p bytes start (L ++ [e])) {rd : TReader} (hby : rd.bytes = bytes) (hst : rd.start = start)
    {a w : List Nat} {x y : Nat} (htext : e.raw = a ++ x :: y :: w) (hx : x ≠ 10) (hy : isSpace y = false) (hw : ∀ c ∈ w, isSpace c = true) :
    ∃ k, setPos rd bytes.length = .ok { rd with pos := k } ∧ goBackOne { rd with pos := k } = .ok (0, { rd with pos := start + (flat L).length }) := by
  obtain ⟨a0, hb, hl, hs, hz⟩ := hT.before
  have hst2 := (hT.ok e (by simp)).2
  have hf0 : flat ([] : List Entry) = [] := rfl
  rw [hf0, List.append_nil] at hb
  have hrb : rd.bytes = (a0 ++ a ++ [x]) ++ y :: w := by rw [hby, hb, htext]; simp
  have h1 := setPos_end (rd := rd) (p := a0 ++ a ++ [x]) (c := y) (w := w) hrb hy hw
  have hstep : Steppable (a ++ [x, y]) := by
    have hsh := hst2.short
    have hlf := hst2.noLF
    have hnn := hst2.noNul
    rw [htext] at hsh hlf hnn
    refine ⟨by simp, ?_, ?_, ?_⟩
    · simp only [List.length_append, List.length_cons, List.length_nil] at hsh ⊢
      omega
    · have e1 : (a ++ [x, y]).dropLast = a ++ [x] := by
        have : a ++ [x, y] = (a ++ [x]) ++ [y] := by simp
        rw [this, List.dropLast_concat]
      rw [e1]
      intro hm
      rcases List.mem_append.1 hm with hm | hm
      · refine hlf ?_
        rw [List.dropLast_append_of_ne_nil (by simp)]
        exact List.mem_append_left _ hm
      · simp only [List.mem_singleton] at hm
        exact hx hm.symm
    · intro hm
      refine hnn ?_
      have : a ++ x :: y :: w = a ++ [x, y] ++ w := by simp
      rw [this]
      exact List.mem_append_left _ hm
  have hpos : (a0 ++ a ++ [x]).length + 1 = a0.length + (a ++ [x, y]).length := by
    simp only [List.length_append, List.length_cons, List.length_nil]
    omega
  have h2 := goBack_line (rd := { rd with pos := (a0 ++ a ++ [x]).length + 1 }) (a := a0) (r := a ++ [x, y]) (by
    show rd.bytes.take ((a0 ++ a ++ [x]).length + 1) = _
    rw [hpos, ← List.length_append]
    have : rd.bytes = (a0 ++ (a ++ [x, y])) ++ w := by rw [hrb]; simp
    rw [this, List.take_left]) hpos (by rw [← hst] at hs; exact hs) hstep hz
  refine ⟨_, by rw [← hby]; exact h1, ?_⟩
  rw [h2, hl]

end Verif.Text
