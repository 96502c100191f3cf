import Verif.Proof.ReaderOps
import Verif.Spec.Zstd
/-!
# Reading a compressed trace is reading the decompressed one
-/

namespace Verif.Reader.Zstd
open Verif Verif.Reader Verif.Spec.Reader


variable {C : Codec} {comp data : List Nat}

/-- `off` bytes of the data have been delivered -/
structure ZInv (D : Spec.Zstd.Decodes C comp data) (z : Z C) (off : Nat) : Prop where
  file : z.file = comp
  size : 0 < z.inSize
  pos : z.pos ≤ comp.length
  buf : z.out.length ≤ z.outSize
  st : ∃ k m, D.At z.zds k m ∧ k ≤ z.pos ∧ z.inp = (comp.drop k).take (z.pos - k) ∧ off + z.out.length = m ∧ m ≤ data.length ∧ z.out = (data.drop off).take z.out.length ∧
    (k = comp.length → data.length ≤ z.outSize → m = data.length)

/-- nothing is left to be read from the file -/
def Ended (z : Z C) (n : Nat) : Prop := z.inp = [] ∧ z.file.length ≤ z.pos ∧ z.out.length < n

/-- all data come out of the decoder before the end of the file is noticed -/
def Whole (D : Spec.Zstd.Decodes C comp data) (outSize : Nat) : Prop := data.length ≤ outSize ∨ D.Prompt

theorem take_eq_nil {l : List Nat} {n : Nat} (h : n ≤ l.length) (e : l.take n = []) : n = 0 := by
  have := congrArg List.length e
  rw [List.length_take, List.length_nil] at this
  omega

theorem inp_pos {D : Spec.Zstd.Decodes C comp data} {z : Z C} {off : Nat} (h : ZInv D z off) (e : z.inp = []) : ∃ m, D.At z.zds z.pos m ∧ off + z.out.length = m ∧ m ≤ data.length ∧
    z.out = (data.drop off).take z.out.length ∧ (z.pos = comp.length → data.length ≤ z.outSize → m = data.length) := by
  obtain ⟨k, m, h1, h2, h3, h4, h5, h6, h7⟩ := h.st
  have : z.pos - k = 0 := take_eq_nil (l := comp.drop k) (by have := h.pos; simp; omega) (h3 ▸ e)
  have hk : k = z.pos := by omega
  subst hk
  exact ⟨m, h1, h4, h5, h6, h7⟩

/-- `_read_from_file` -/
theorem readFile_inv {D : Spec.Zstd.Decodes C comp data} {z : Z C} {off : Nat} (h : ZInv D z off) (e : z.inp = []) : ZInv D (readFile z) off := by
  obtain ⟨m, h1, h4, h5, h6, h7⟩ := inp_pos h e
  refine ⟨h.file, h.size, ?_, h.buf, z.pos, m, h1, ?_, ?_, h4, h5, h6, h7⟩
  · unfold readFile
    have := h.pos
    simp [h.file]
    omega
  · unfold readFile; simp
  · unfold readFile
    simp only [Nat.add_sub_cancel_left, h.file]
    generalize List.drop z.pos comp = l
    rw [List.length_take, List.take_eq_take_iff]
    omega

theorem readFile_meas (z : Z C) (e : z.inp = []) (h : z.pos ≤ z.file.length) :
    (readFile z).inp.length + ((readFile z).file.length - (readFile z).pos) = z.inp.length + (z.file.length - z.pos) := by
  unfold readFile
  simp [e]
  omega

theorem decompress_end {D : Spec.Zstd.Decodes C comp data} {z : Z C} {off : Nat} (h : ZInv D z off) (e : (decompress z).1 = false) :
    ZInv D (decompress z).2 off ∧ (decompress z).2.out = z.out ∧ (decompress z).2.inp = [] ∧ (decompress z).2.file.length ≤ (decompress z).2.pos ∧
    (decompress z).2.outSize = z.outSize ∧ (Whole D z.outSize → off + z.out.length = data.length) := by
  unfold decompress at e ⊢
  dsimp only at e ⊢
  by_cases hi : z.inp = []
  · rw [if_pos hi] at e ⊢
    by_cases hj : (readFile z).inp = []
    · rw [if_pos hj] at e ⊢
      have hv := readFile_inv h hi
      have hp : comp.length ≤ z.pos := by
        have : (comp.drop z.pos).take z.inSize = [] := by have := hj; unfold readFile at this; rwa [h.file] at this
        rw [List.take_eq_nil_iff] at this
        rcases this with h0 | h0
        · have := h.size; omega
        · exact List.drop_eq_nil_iff.1 h0
      refine ⟨hv, rfl, hj, ?_, rfl, ?_⟩
      · rw [hv.file]; unfold readFile; simp; omega
      · intro hw
        obtain ⟨m, h1, h4, h5, h6, h7⟩ := inp_pos h hi
        have hpe : z.pos = comp.length := Nat.le_antisymm h.pos hp
        rcases hw with hw | hw
        · rw [h4]; exact h7 hpe hw
        · rw [h4]; exact hw _ _ (hpe ▸ h1)
    · rw [if_neg hj] at e; cases e
  · rw [if_neg hi, if_neg hi] at e; cases e

/-- a call of the decoder -/
theorem step_inv {D : Spec.Zstd.Decodes C comp data} {y : Z C} {off : Nat} (h : ZInv D y off) :
    let r := C.step y.zds y.inp (y.outSize - y.out.length)
    ZInv D { y with zds := r.1, inp := y.inp.drop r.2.1, out := y.out ++ r.2.2 } off ∧ (y.inp ≠ [] → y.out.length < y.outSize → 0 < r.2.1 + r.2.2.length) ∧ r.2.1 ≤ y.inp.length := by
  obtain ⟨k, m, h1, h2, h3, h4, h5, h6, h7⟩ := h.st
  have hpre : y.inp <+: comp.drop k := by rw [h3]; exact List.take_prefix _ _
  obtain ⟨s1, s2, s3, s4⟩ := D.step _ _ _ _ (y.outSize - y.out.length) h1 hpre
  have s5 := D.flush _ _ _ _ (y.outSize - y.out.length) h1 hpre
  have s6 := D.progress _ _ _ _ (y.outSize - y.out.length) h1 hpre
  dsimp only
  generalize C.step y.zds y.inp (y.outSize - y.out.length) = r at *
  obtain ⟨s, c, o⟩ := r
  dsimp only at *
  have hil : y.inp.length ≤ y.pos - k := by rw [h3]; simp; omega
  have hol : o.length ≤ data.length - m := by have := s3.length_le; simpa using this
  have hoe : o = (data.drop m).take o.length := List.prefix_iff_eq_take.1 s3
  refine ⟨⟨h.file, h.size, h.pos, ?_, k + c, m + o.length, s4, ?_, ?_, ?_, ?_, ?_, ?_⟩, fun a b => s6 a (by omega), s1⟩
  · have := h.buf; simp; omega
  · show k + c ≤ y.pos; omega
  · show y.inp.drop c = (comp.drop (k + c)).take (y.pos - (k + c))
    rw [h3, List.drop_take, List.drop_drop, Nat.sub_sub]
  · show off + (y.out ++ o).length = _; simp; omega
  · omega
  · show y.out ++ o = (data.drop off).take (y.out ++ o).length
    rw [List.length_append, List.take_add, ← h6, List.drop_drop, h4, ← hoe]
  · intro he hs
    show m + o.length = data.length
    by_cases hr : o.length < y.outSize - y.out.length
    · have := s5 hr
      rw [he] at this
      have := D.all
      omega
    · have : data.length ≤ y.outSize := hs
      omega

theorem decompress_more {D : Spec.Zstd.Decodes C comp data} {z : Z C} {off n : Nat} (h : ZInv D z off) (hn : n ≤ z.outSize) (ho : z.out.length < n) (e : (decompress z).1 = true) :
    ZInv D (decompress z).2 off ∧ (decompress z).2.outSize = z.outSize ∧
    (decompress z).2.inp.length + ((decompress z).2.file.length - (decompress z).2.pos) + (n - (decompress z).2.out.length) <
      z.inp.length + (z.file.length - z.pos) + (n - z.out.length) := by
  have key : ∀ y : Z C, ZInv D y off → y.inp ≠ [] → y.out = z.out → y.outSize = z.outSize → y.inp.length + (y.file.length - y.pos) = z.inp.length + (z.file.length - z.pos) →
      ZInv D { y with zds := (C.step y.zds y.inp (y.outSize - y.out.length)).1, inp := y.inp.drop (C.step y.zds y.inp (y.outSize - y.out.length)).2.1, out := y.out ++ (C.step y.zds y.inp (y.outSize - y.out.length)).2.2 } off ∧
      y.outSize = z.outSize ∧ (y.inp.drop (C.step y.zds y.inp (y.outSize - y.out.length)).2.1).length + (y.file.length - y.pos) + (n - (y.out ++ (C.step y.zds y.inp (y.outSize - y.out.length)).2.2).length) <
      z.inp.length + (z.file.length - z.pos) + (n - z.out.length) := by
    intro y hy hi hyo hys hm
    obtain ⟨a, b, c⟩ := step_inv hy
    refine ⟨a, hys, ?_⟩
    have hb := b hi (by rw [hyo, hys]; omega)
    rw [List.length_drop, List.length_append, hyo]
    rw [hyo] at hb c
    omega
  unfold decompress at e ⊢
  dsimp only at e ⊢
  by_cases hi : z.inp = []
  · rw [if_pos hi] at e ⊢
    by_cases hj : (readFile z).inp = []
    · rw [if_pos hj] at e; cases e
    · rw [if_neg hj]
      exact key _ (readFile_inv h hi) hj rfl rfl (readFile_meas z hi (by rw [h.file]; exact h.pos))
  · rw [if_neg hi, if_neg hi]
    exact key z h hi rfl rfl rfl

/-- `zstd_reader_read_bytes` returns the next bytes of the data, or reports the end -/
theorem readBytes_spec {D : Spec.Zstd.Decodes C comp data} {n : Nat} (hn : 0 < n) : ∀ (fuel : Nat) (z : Z C) (off : Nat), ZInv D z off → n ≤ z.outSize →
    z.inp.length + (z.file.length - z.pos) + (n - z.out.length) < fuel →
    ∃ r z', readBytes n fuel z = .ok (r, z') ∧ z'.outSize = z.outSize ∧
      ((r = some ((data.drop off).take n) ∧ off + n ≤ data.length ∧ ZInv D z' (off + n)) ∨
       (r = none ∧ ZInv D z' off ∧ Ended z' n ∧ (Whole D z.outSize → off + z'.out.length = data.length)))
  | 0, _, _, _, _, hf => by omega
  | fuel + 1, z, off, h, hs, hf => by
    rw [readBytes]
    by_cases ho : z.out.length < n
    · rw [if_pos ho]
      cases hd : (decompress z).1 with
      | true =>
        obtain ⟨a, b, c⟩ := decompress_more h hs ho hd
        obtain ⟨r, z', e1, e2, e3⟩ := readBytes_spec hn fuel (decompress z).2 off a (by omega) (by omega)
        refine ⟨r, z', ?_, by omega, ?_⟩
        · rw [if_pos rfl]; exact e1
        · rw [b] at e3; exact e3
      | false =>
        obtain ⟨a, b, c, d, d', e⟩ := decompress_end h hd
        refine ⟨none, (decompress z).2, ?_, d', .inr ⟨rfl, a, ⟨c, d, by rw [b]; exact ho⟩, fun hw => by rw [b]; exact e hw⟩⟩
        rw [if_neg (by simp)]
    · rw [if_neg ho]
      obtain ⟨k, m, h1, h2, h3, h4, h5, h6, h7⟩ := h.st
      have hl : n ≤ z.out.length := by omega
      refine ⟨_, { z with out := z.out.drop n }, rfl, rfl, .inl ⟨?_, by omega, h.file, h.size, h.pos, ?_, k, m, h1, h2, h3, ?_, h5, ?_, h7⟩⟩
      · rw [h6, List.take_take, Nat.min_eq_left hl]
      · have := h.buf; show (z.out.drop n).length ≤ _; simp; omega
      · show off + n + (z.out.drop n).length = m; simp; omega
      · show z.out.drop n = (data.drop (off + n)).take (z.out.drop n).length
        rw [List.length_drop, ← List.drop_drop, ← List.drop_take, ← h6]

/-- at the end of the file the end is reported again -/
theorem readBytes_ended {D : Spec.Zstd.Decodes C comp data} {z : Z C} {off n : Nat} (h : ZInv D z off) (he : Ended z n) : ∃ z', readBytes n (z.fuel n) z = .ok (none, z') ∧ ZInv D z' off ∧ Ended z' n ∧
    z'.out = z.out ∧ z'.outSize = z.outSize := by
  obtain ⟨h1, h2, h3⟩ := he
  have hd : (decompress z).1 = false := by
    unfold decompress
    have : (readFile z).inp = [] := by unfold readFile; simp [List.drop_eq_nil_of_le h2]
    dsimp only
    rw [if_pos h1, if_pos this]
  obtain ⟨a, b, c, d, d', e⟩ := decompress_end h hd
  refine ⟨(decompress z).2, ?_, a, ⟨c, d, by rw [b]; exact h3⟩, b, d'⟩
  unfold Z.fuel
  rw [readBytes, if_pos h3, hd]
  rfl

/-! ## the reader -/

/-- all loads lie within the record -/
def Within (F : Fmt) : Prop := ∀ l ∈ F.loads, l.off + l.width ≤ F.item

theorem leU_within (bytes : List Nat) (off item : Nat) : ∀ (k o : Nat), o + k ≤ item → leU ((bytes.drop off).take item) o k = leU bytes (off + o) k
  | 0, _, _ => rfl
  | k + 1, o, h => by
    rw [leU, leU, leU_within bytes off item k (o + 1) (by omega)]
    have : ((bytes.drop off).take item)[o]? = bytes[off + o]? := by
      rw [List.getElem?_take_of_lt (by omega), List.getElem?_drop]
    rw [this]
    rfl

theorem loadAll_within (bytes : List Nat) (off item : Nat) : ∀ (ls : List Load) (x : Vals), (∀ l ∈ ls, l.off + l.width ≤ item) →
    loadAll ((bytes.drop off).take item) 0 ls x = loadAll bytes off ls x
  | [], _, _ => rfl
  | l :: ls, x, h => by
    have h0 := h l List.mem_cons_self
    rw [loadAll, loadAll]
    unfold leI
    rw [Nat.zero_add, leU_within _ _ _ _ _ h0]
    congr 1
    funext v
    exact loadAll_within bytes off item ls _ (fun x hx => h x (List.mem_cons_of_mem _ hx))

theorem decode_within {F : Fmt} (h : Within F) (bytes : List Nat) (off : Nat) (x : Vals) : F.decode ((bytes.drop off).take F.item) 0 x = F.decode bytes off x := by
  unfold Fmt.decode
  rw [loadAll_within bytes off F.item F.loads x h]

/-- the compressed reader stands where the plain one stands in the decompressed file -/
structure Sim (D : Spec.Zstd.Decodes C comp data) (os : Nat) (cap0 : Int) (zr : ZReader C) (rd : Reader) : Prop where
  fmt : rd.fmt = zr.fmt
  bytes : rd.bytes = data
  inv : ZInv D zr.z rd.off
  osz : zr.z.outSize = os
  off : zr.off < comp.length
  iz : rd.ignoreZero = zr.ignoreZero
  is : rd.ignoreSize = zr.ignoreSize
  cap : rd.cap = zr.cap
  nRead : rd.nRead = zr.nRead
  sampler : rd.sampler = zr.sampler
  fwd : rd.fwd = true
  part : ∃ j, rd.off + j * zr.fmt.item = data.length
  item : 0 < zr.fmt.item
  room : zr.fmt.item ≤ os
  within : Within zr.fmt
  capc : zr.cap = cap0

/-- the reader is at the end of the file -/
structure Dead (D : Spec.Zstd.Decodes C comp data) (os : Nat) (zr : ZReader C) : Prop where
  inv : ∃ off, ZInv D zr.z off ∧ (Whole D os → off + zr.z.out.length = data.length) ∧ ∃ j, off + j * zr.fmt.item = data.length
  ended : Ended zr.z zr.fmt.item
  item : 0 < zr.fmt.item
  osz : zr.z.outSize = os

variable {D : Spec.Zstd.Decodes C comp data} {os : Nat} {c : Int}

theorem readBytes_fuel {z : Z C} {n : Nat} : z.inp.length + (z.file.length - z.pos) + (n - z.out.length) < z.fuel n := by unfold Z.fuel; omega

theorem readRec_sim : ∀ (f f' : Nat) (zr : ZReader C) (rd : Reader) (q : Request) (st : Int) (rd' : Reader) (q' : Request), Sim D os c zr rd → f ≤ f' → Reader.readRec f rd q = .ok (st, rd', q') →
    ∃ st2 zr' q2, readRec f' zr q = .ok (st2, zr', q2) ∧ ((st = 0 ∧ st2 = 0 ∧ q2 = q' ∧ Sim D os c zr' rd') ∨ (st2 = 1 ∧ Dead D os zr' ∧ (Whole D os → st ≠ 0)))
  | 0, _, _, _, _, _, _, _, _, _, e => by cases e
  | f + 1, 0, _, _, _, _, _, _, _, hf, _ => by omega
  | f + 1, f' + 1, zr, rd, q, st, rd', q', h, hf, e => by
    obtain ⟨r, z', e1, e2, e3⟩ := readBytes_spec (D := D) h.item (zr.z.fuel zr.fmt.item) zr.z rd.off h.inv (by rw [h.osz]; exact h.room) readBytes_fuel
    rw [Reader.readRec] at e
    rw [readRec, e1, Res.bind_ok]
    obtain ⟨j, hj⟩ := h.part
    rcases e3 with ⟨rfl, hle, hv⟩ | ⟨rfl, hv, he, hw⟩
    · dsimp only
      rw [if_neg (by rw [h.bytes]; have := h.item; omega), h.fmt, h.bytes] at e
      obtain ⟨x, ex, e⟩ := Res.bind_eq_ok.1 e
      rw [decode_within h.within, ex, Res.bind_ok]
      have hj' : ∃ j, rd.off + zr.fmt.item + j * zr.fmt.item = data.length := by
        cases j with
        | zero => have := h.item; omega
        | succ j => exact ⟨j, by rw [← hj, Nat.succ_mul]; omega⟩
      have hs : Sim D os c { zr with z := z' } { rd with fmt := zr.fmt, bytes := data, ignoreZero := zr.ignoreZero, fwd := true, off := rd.off + zr.fmt.item } :=
        ⟨rfl, rfl, hv, e2.trans h.osz, h.off, rfl, h.is, h.cap, h.nRead, h.sampler, rfl, hj', h.item, h.room, h.within, h.capc⟩
      rw [h.iz, h.fwd] at e
      by_cases hk : zr.fmt.skip zr.ignoreZero true x = true
      · rw [if_pos hk] at e ⊢
        exact readRec_sim f f' _ _ _ _ _ _ hs (by omega) e
      · rw [if_neg hk] at e ⊢
        injection e with e
        injection e with a b
        injection b with b c
        subst a b c
        exact ⟨0, _, _, rfl, .inl ⟨rfl, rfl, rfl, hs⟩⟩
    · dsimp only
      refine ⟨1, _, _, rfl, .inr ⟨rfl, ⟨⟨rd.off, hv, fun w => hw (by rw [h.osz]; exact w), j, hj⟩, he, h.item, e2.trans h.osz⟩, ?_⟩⟩
      intro w
      have hw := hw (by rw [h.osz]; exact w)
      have hj0 : j = 0 := by
        by_contra hne
        have : zr.fmt.item ≤ j * zr.fmt.item := Nat.le_mul_of_pos_left _ (by omega)
        have := he.2.2
        omega
      subst hj0
      rw [if_pos (by rw [h.bytes]; omega)] at e
      injection e with e
      injection e with a b
      rw [← a]; decide

theorem readRec_dead {zr : ZReader C} (h : Dead D os zr) (f : Nat) (hf : 0 < f) (q : Request) : ∃ zr' q', readRec f zr q = .ok (1, zr', q') ∧ Dead D os zr' := by
  obtain ⟨f, rfl⟩ : ∃ g, f = g + 1 := ⟨f - 1, by omega⟩
  obtain ⟨off, hv, hw, hj⟩ := h.inv
  obtain ⟨z', e1, e2, e3, e4, e5⟩ := readBytes_ended hv h.ended
  rw [readRec, e1, Res.bind_ok]
  exact ⟨_, _, rfl, ⟨off, e2, fun w => by show off + z'.out.length = _; rw [e4]; exact hw w, hj⟩, e3, h.item, e5.trans h.osz⟩

theorem readPre_sim {zr : ZReader C} {rd : Reader} {q : Request} {lim : Nat} {e : Bool} {st : Int} {rd' : Reader} {q' : Request} (h : Sim D os c zr rd) (hl : data.length + 1 ≤ lim)
    (er : Reader.readPre rd q = .ok (e, st, rd', q')) :
    ∃ e2 st2 zr' q2, readPre lim zr q = .ok (e2, st2, zr', q2) ∧
      ((e = false ∧ st = 0 ∧ e2 = false ∧ st2 = 0 ∧ q2 = q' ∧ Sim D os c zr' rd') ∨ (st2 = 1 ∧ ((e2 = true ∧ 1 < c) ∨ Dead D os zr') ∧ (Whole D os → st ≠ 0))) := by
  unfold Reader.readPre at er
  unfold readPre
  rw [if_neg (by rw [h.inv.file]; have := h.off; omega)]
  by_cases hc : zr.cap > 1 ∧ (zr.nRead : Int) ≥ zr.cap
  · rw [if_pos hc]
    refine ⟨_, _, _, _, rfl, .inr ⟨rfl, .inl ⟨rfl, by rw [← h.capc]; exact hc.1⟩, fun _ => ?_⟩⟩
    split at er
    · injection er with er; injection er with a b; injection b with b c; rw [← b]; decide
    · rw [if_pos (by rw [h.cap, h.nRead]; exact hc)] at er
      injection er with er; injection er with a b; injection b with b c; rw [← b]; decide
  · rw [if_neg hc]
    have hs : Sim D os c { zr with nRead := zr.nRead + 1 } { rd with nRead := rd.nRead + 1 } :=
      ⟨h.fmt, h.bytes, h.inv, h.osz, h.off, h.iz, h.is, h.cap, by show rd.nRead + 1 = zr.nRead + 1; rw [h.nRead], h.sampler, h.fwd, h.part, h.item, h.room, h.within, h.capc⟩
    by_cases hoff : rd.off ≥ rd.bytes.length
    · rw [if_pos hoff] at er
      injection er with er; injection er with a b; injection b with b c
      have hrr : Reader.readRec 1 { rd with nRead := rd.nRead + 1 } { vals := q.vals.set .ttl (-1), hv := 0, valid := true } =
          .ok (1, { rd with nRead := rd.nRead + 1 }, { vals := q.vals.set .ttl (-1), hv := 0, valid := false }) := by
        rw [Reader.readRec, if_pos hoff]
      obtain ⟨st2, zr', q2, e1, e2⟩ := readRec_sim 1 lim _ _ _ _ _ _ hs (by omega) hrr
      rcases e2 with ⟨x, _⟩ | ⟨rfl, e2, e3⟩
      · cases x
      · rw [e1, Res.bind_ok]
        exact ⟨_, _, _, _, rfl, .inr ⟨rfl, .inr e2, fun _ => by rw [← b]; decide⟩⟩
    · rw [if_neg hoff, if_neg (by rw [h.cap, h.nRead]; exact hc)] at er
      obtain ⟨t, et, er⟩ := Res.bind_eq_ok.1 er
      injection er with er; injection er with a b
      subst b
      obtain ⟨st2, zr', q2, e1, e2⟩ := readRec_sim _ lim _ _ _ _ _ _ hs (by unfold Reader.fuel; rw [h.bytes]; exact hl) et
      rw [e1, Res.bind_ok]
      rcases e2 with ⟨x1, x2, x3, x4⟩ | ⟨x1, x2, x3⟩
      · exact ⟨_, _, _, _, rfl, .inl ⟨a.symm, x1, rfl, x2, x3, x4⟩⟩
      · exact ⟨_, _, _, _, rfl, .inr ⟨x1, .inr x2, x3⟩⟩

theorem apply_eq {zr : ZReader C} {rd : Reader} (h : rd.ignoreSize = zr.ignoreSize) (q : Request) : Reader.applyIgnoreSize rd q = applyIgnoreSize zr q := by
  unfold Reader.applyIgnoreSize applyIgnoreSize
  rw [h]

theorem readPlain_sim {zr : ZReader C} {rd : Reader} {q : Request} {lim : Nat} {st : Int} {rd' : Reader} {q' : Request} (h : Sim D os c zr rd) (hl : data.length + 1 ≤ lim)
    (er : Reader.readPlain rd q = .ok (st, rd', q')) :
    ∃ st2 zr' q2, readPlain lim zr q = .ok (st2, zr', q2) ∧ ((st = 0 ∧ st2 = 0 ∧ q2 = q' ∧ Sim D os c zr' rd') ∨ (st2 = 1 ∧ (c ≤ 1 → Dead D os zr') ∧ (Whole D os → st ≠ 0))) := by
  unfold Reader.readPlain at er
  unfold readPlain
  obtain ⟨⟨e, s, r, p⟩, e1, er⟩ := Res.bind_eq_ok.1 er
  obtain ⟨e2, st2, zr', q2, e3, e4⟩ := readPre_sim h hl e1
  rw [e3, Res.bind_ok]
  dsimp only at er ⊢
  rcases e4 with ⟨rfl, rfl, rfl, rfl, rfl, hs⟩ | ⟨rfl, hdead, hw⟩
  · rw [if_neg (by simp)] at er ⊢
    injection er with er; injection er with a b; injection b with b c
    subst b
    exact ⟨_, _, _, rfl, .inl ⟨a.symm, rfl, by rw [← c, apply_eq hs.is], hs⟩⟩
  · have hst : st = s := by
      split at er
      · injection er with er; injection er with a b; exact a.symm
      · injection er with er; injection er with a b; exact a.symm
    have hdd : c ≤ 1 → Dead D os zr' := fun h1 => by rcases hdead with ⟨_, h2⟩ | h2; omega; exact h2
    cases e2
    · exact ⟨_, _, _, rfl, .inr ⟨rfl, hdd, by rw [hst]; exact hw⟩⟩
    · exact ⟨_, _, _, rfl, .inr ⟨rfl, hdd, by rw [hst]; exact hw⟩⟩

theorem readPlain_dead {zr : ZReader C} (h : Dead D os zr) (lim : Nat) (hl : 0 < lim) (q : Request) : ∃ zr' q', readPlain lim zr q = .ok (1, zr', q') ∧ Dead D os zr' := by
  unfold readPlain readPre
  split
  · exact ⟨_, _, rfl, h⟩
  · split
    · exact ⟨_, _, rfl, h⟩
    · have : Dead D os { zr with nRead := zr.nRead + 1 } := ⟨h.inv, h.ended, h.item, h.osz⟩
      obtain ⟨zr', q', e, hd⟩ := readRec_dead this lim hl { vals := q.vals.set .ttl (-1), hv := 0, valid := true }
      rw [e]
      exact ⟨_, _, rfl, hd⟩

theorem sampleLoop_sim (hash : Nat → Nat) {lim : Nat} (hl : data.length + 1 ≤ lim) : ∀ (f f' : Nat) (s : Sampler) (zr : ZReader C) (rd : Reader) (q : Request) (e : Bool) (st : Int) (s' : Sampler)
    (rd' : Reader) (q' : Request), Sim D os c zr rd → SOk s → f ≤ f' → Reader.sampleLoop hash f s rd 0 q = .ok (e, st, s', rd', q') →
    ∃ e2 st2 s2 zr' q2, sampleLoop hash lim f' s zr 0 q = .ok (e2, st2, s2, zr', q2) ∧
      ((e = false ∧ st = 0 ∧ e2 = false ∧ st2 = 0 ∧ s2 = s' ∧ q2 = q' ∧ Sim D os c zr' rd' ∧ SOk s') ∨ (st2 = 1 ∧ (c ≤ 1 → Dead D os zr') ∧ (Whole D os → st ≠ 0)))
  | 0, _, _, _, _, _, _, _, _, _, _, _, _, _, er => by cases er
  | f + 1, 0, _, _, _, _, _, _, _, _, _, _, _, hf, _ => by omega
  | f + 1, f' + 1, s, zr, rd, q, e, st, s', rd', q', h, hs, hf, er => by
    rw [Reader.sampleLoop] at er
    rw [sampleLoop]
    obtain ⟨b, s1, hv, e1, hs1⟩ := sample_ok hash hs q
    rw [e1, Res.bind_ok] at er ⊢
    dsimp only at er ⊢
    cases b with
    | true =>
      rw [if_pos rfl] at er ⊢
      injection er with er; injection er with a b; injection b with b c; injection c with c d; injection d with d g
      subst a b c d g
      exact ⟨_, _, _, _, _, rfl, .inl ⟨rfl, rfl, rfl, rfl, rfl, rfl, h, hs1⟩⟩
    | false =>
      rw [if_neg (by simp)] at er ⊢
      rw [if_pos h.fwd] at er
      obtain ⟨⟨t, rd1, q1⟩, e2, er⟩ := Res.bind_eq_ok.1 er
      obtain ⟨st2, zr1, q2, e3, e4⟩ := readPlain_sim h hl e2
      rw [e3, Res.bind_ok]
      dsimp only at er ⊢
      rcases e4 with ⟨rfl, rfl, rfl, hs2⟩ | ⟨rfl, hdd, hw⟩
      · rw [if_neg (by simp)] at er ⊢
        exact sampleLoop_sim hash hl f f' s1 zr1 rd1 _ e st s' rd' q' hs2 hs1 (by omega) er
      · rw [if_pos (by decide)]
        refine ⟨_, _, _, _, _, rfl, .inr ⟨rfl, hdd, fun w => ?_⟩⟩
        have := hw w
        rw [if_pos this] at er
        injection er with er; injection er with a b; injection b with b c
        rw [← b]; exact this

theorem plain_end : ∀ (f : Nat) (rd : Reader) (q : Request) (st : Int) (rd' : Reader) (q' : Request), Reader.readRec f rd q = .ok (st, rd', q') → st ≠ 0 →
    st = 1 ∧ rd'.off ≥ rd'.bytes.length
  | 0, _, _, _, _, _, e, _ => by cases e
  | f + 1, rd, q, st, rd', q', e, h => by
    rw [Reader.readRec] at e
    split at e
    · rename_i ho
      injection e with e; injection e with a b; injection b with b c
      subst a b
      exact ⟨rfl, ho⟩
    · obtain ⟨x, ex, e⟩ := Res.bind_eq_ok.1 e
      split at e
      · exact plain_end f _ _ _ _ _ e h
      · injection e with e; injection e with a b
        exact absurd a.symm h

theorem plain_loop_end (hash : Nat → Nat) {f : Nat} {s : Sampler} {rd : Reader} {q : Request} {e : Bool} {st : Int} {s' : Sampler} {rd' : Reader} {q' : Request} (hs : SOk s) (hf : rd.fwd = true)
    (ho : rd.off ≥ rd.bytes.length) (er : Reader.sampleLoop hash f s rd 1 q = .ok (e, st, s', rd', q')) : st = 1 := by
  cases f with
  | zero => cases er
  | succ f =>
    rw [Reader.sampleLoop] at er
    obtain ⟨b, s1, hv, e1, hs1⟩ := sample_ok hash hs q
    rw [e1, Res.bind_ok] at er
    dsimp only at er
    cases b with
    | true =>
      rw [if_pos rfl] at er
      injection er with er; injection er with a b; injection b with b c
      exact b.symm
    | false =>
      rw [if_neg (by simp), if_pos hf] at er
      unfold Reader.readPlain Reader.readPre at er
      rw [if_pos ho] at er
      simp only [Res.bind_ok, if_pos] at er
      rw [if_pos (by decide)] at er
      injection er with er; injection er with a b; injection b with b c
      exact b.symm

theorem readOne_sim (hash : Nat → Nat) {zr : ZReader C} {rd : Reader} {q : Request} {lim : Nat} {st : Int} {rd' : Reader} {q' : Request} (h : Sim D os c zr rd) (hs : SOkO rd.sampler)
    (hl : data.length + 1 ≤ lim) (er : Reader.readOne hash rd q = .ok (st, rd', q')) :
    ∃ st2 zr' q2, readOne hash lim zr q = .ok (st2, zr', q2) ∧ ((st = 0 ∧ st2 = 0 ∧ q2 = q' ∧ Sim D os c zr' rd' ∧ SOkO rd'.sampler) ∨ (st2 = 1 ∧ (c ≤ 1 → Dead D os zr') ∧ (Whole D os → st ≠ 0))) := by
  unfold Reader.readOne at er
  unfold readOne
  rw [← h.sampler]
  cases hsm : rd.sampler with
  | none =>
    rw [hsm] at er
    dsimp only at er ⊢
    obtain ⟨st2, zr', q2, e1, e2⟩ := readPlain_sim h hl er
    refine ⟨_, _, _, e1, ?_⟩
    rcases e2 with ⟨a, b, c, d⟩ | e2
    · refine .inl ⟨a, b, c, d, ?_⟩
      obtain ⟨o, n, hm⟩ := readPlain_moved er
      have hm : rd' = { rd with off := o, nRead := n } := hm
      rw [hm]
      show SOkO rd.sampler
      rw [hsm]; trivial
    · exact .inr e2
  | some s =>
    rw [hsm] at er hs
    dsimp only at er ⊢
    obtain ⟨⟨e, s1, r, p⟩, e1, er⟩ := Res.bind_eq_ok.1 er
    obtain ⟨e2, st2, zr', q2, e3, e4⟩ := readPre_sim h hl e1
    rw [e3, Res.bind_ok]
    dsimp only at er ⊢
    rcases e4 with ⟨rfl, rfl, rfl, rfl, rfl, hs1⟩ | ⟨rfl, hdead, hw⟩
    · rw [if_neg (by simp)] at er ⊢
      obtain ⟨⟨e5, st5, s5, r5, p5⟩, e6, er⟩ := Res.bind_eq_ok.1 er
      have hs2 : Sim D os c { zr' with sampler := none } { r with sampler := none } :=
        ⟨hs1.fmt, hs1.bytes, hs1.inv, hs1.osz, hs1.off, hs1.iz, hs1.is, hs1.cap, hs1.nRead, rfl, hs1.fwd, hs1.part, hs1.item, hs1.room, hs1.within, hs1.capc⟩
      obtain ⟨e7, st7, s7, zr7, q7, e8, e9⟩ := sampleLoop_sim hash hl _ lim s _ _ _ _ _ _ _ _ hs2 hs (by unfold Reader.fuel; rw [h.bytes]; exact hl) e6
      rw [e8, Res.bind_ok]
      dsimp only at er ⊢
      rcases e9 with ⟨rfl, rfl, rfl, rfl, rfl, rfl, hs3, hs4⟩ | ⟨rfl, hdd, hw⟩
      · rw [if_neg (by simp)] at er ⊢
        injection er with er; injection er with a b; injection b with b c
        subst b
        exact ⟨_, _, _, rfl, .inl ⟨a.symm, rfl, by rw [← c, apply_eq hs3.is],
          ⟨hs3.fmt, hs3.bytes, hs3.inv, hs3.osz, hs3.off, hs3.iz, hs3.is, hs3.cap, hs3.nRead, rfl, hs3.fwd, hs3.part, hs3.item, hs3.room, hs3.within, hs3.capc⟩, hs4⟩⟩
      · have hst : st = st5 := by
          split at er
          · injection er with er; injection er with a b; exact a.symm
          · injection er with er; injection er with a b; exact a.symm
        have hde : ∀ o, c ≤ 1 → Dead D os { zr7 with sampler := o } := fun o h1 => ⟨(hdd h1).inv, (hdd h1).ended, (hdd h1).item, (hdd h1).osz⟩
        cases e7
        · exact ⟨_, _, _, rfl, .inr ⟨rfl, hde _, by rw [hst]; exact hw⟩⟩
        · exact ⟨_, _, _, rfl, .inr ⟨rfl, hde _, by rw [hst]; exact hw⟩⟩
    · have hst : Whole D os → st ≠ 0 := by
        intro w
        have hw := hw w
        cases e with
        | true =>
          rw [if_pos rfl] at er
          injection er with er; injection er with a b
          rw [← a]; exact hw
        | false =>
          rw [if_neg (by simp)] at er
          unfold Reader.readPre at e1
          split at e1
          · injection e1 with e1; injection e1 with a b; cases a
          · split at e1
            · injection e1 with e1; injection e1 with a b; cases a
            · obtain ⟨t, et, e1⟩ := Res.bind_eq_ok.1 e1
              injection e1 with e1; injection e1 with a b
              subst b
              obtain ⟨hs1, ho⟩ := plain_end _ _ _ _ _ _ et hw
              subst hs1
              have hfw : r.fwd = true := by
                obtain ⟨o, n, hm⟩ := readRec_moved _ _ _ _ et
                have hm : r = { rd with off := o, nRead := n } := hm
                rw [hm]; exact h.fwd
              obtain ⟨⟨e5, st5, s5, r5, p5⟩, e6, er⟩ := Res.bind_eq_ok.1 er
              have := plain_loop_end hash (rd := { r with sampler := none }) hs hfw ho e6
              subst this
              dsimp only at er
              split at er
              · injection er with er; injection er with a b; rw [← a]; decide
              · injection er with er; injection er with a b; rw [← a]; decide
      cases e2 with
      | true => exact ⟨_, _, _, rfl, .inr ⟨rfl, fun h1 => by rcases hdead with ⟨_, h2⟩ | h2; omega; exact h2, hst⟩⟩
      | false =>
        rw [if_neg (by simp)]
        have hd : Dead D os zr' := by rcases hdead with ⟨h, _⟩ | h; cases h; exact h
        have hd2 : Dead D os { zr' with sampler := none } := ⟨hd.inv, hd.ended, hd.item, hd.osz⟩
        obtain ⟨f, rfl⟩ : ∃ f, lim = f + 1 := ⟨lim - 1, by omega⟩
        rw [sampleLoop]
        obtain ⟨b, s2, hv, e5, hs5⟩ := sample_ok hash hs q2
        rw [e5, Res.bind_ok]
        dsimp only
        cases b with
        | true => rw [if_pos rfl, Res.bind_ok]; exact ⟨_, _, _, rfl, .inr ⟨rfl, fun _ => ⟨hd.inv, hd.ended, hd.item, hd.osz⟩, hst⟩⟩
        | false =>
          rw [if_neg (by simp)]
          obtain ⟨zr6, q6, e6, hd6⟩ := readPlain_dead hd2 (f + 1) (by omega) { q2 with hv := hv }
          rw [e6, Res.bind_ok]
          exact ⟨_, _, _, rfl, .inr ⟨rfl, fun _ => ⟨hd6.inv, hd6.ended, hd6.item, hd6.osz⟩, hst⟩⟩

theorem readAll_sim (hash : Nat → Nat) {lim : Nat} (hl : data.length + 1 ≤ lim) : ∀ (f f' : Nat) (zr : ZReader C) (rd : Reader) (q : Request) (qs : List Request) (rd' : Reader), Sim D os c zr rd →
    SOkO rd.sampler → f ≤ f' → Reader.readAll hash f rd q = .ok (qs, rd') →
    ∃ qs2 zr', readAll hash lim f' zr q = .ok (qs2, zr') ∧ qs2 <+: qs ∧ (c ≤ 1 → Dead D os zr') ∧ (Whole D os → qs2 = qs)
  | 0, _, _, _, _, _, _, _, _, _, e => by cases e
  | f + 1, 0, _, _, _, _, _, _, _, hf, _ => by omega
  | f + 1, f' + 1, zr, rd, q, qs, rd', h, hs, hf, e => by
    rw [Reader.readAll] at e
    rw [readAll]
    obtain ⟨⟨st, rd1, q1⟩, e1, e⟩ := Res.bind_eq_ok.1 e
    obtain ⟨st2, zr1, q2, e2, e3⟩ := readOne_sim hash h hs hl e1
    rw [e2, Res.bind_ok]
    dsimp only at e ⊢
    rcases e3 with ⟨rfl, rfl, rfl, h1, hs1⟩ | ⟨rfl, hdd, hw⟩
    · rw [if_neg (by simp)] at e ⊢
      obtain ⟨⟨qs1, rd2⟩, e4, e⟩ := Res.bind_eq_ok.1 e
      injection e with e; injection e with a b
      subst a
      obtain ⟨qs2, zr2, e5, e6, e8, e7⟩ := readAll_sim hash hl f f' zr1 rd1 _ qs1 rd2 h1 hs1 (by omega) e4
      rw [e5, Res.bind_ok]
      exact ⟨_, _, rfl, (List.cons_prefix_cons).2 ⟨rfl, e6⟩, e8, fun w => by rw [e7 w]⟩
    · rw [if_pos (by decide)]
      refine ⟨_, _, rfl, List.nil_prefix, hdd, fun w => ?_⟩
      rw [if_pos (hw w)] at e
      injection e with e; injection e with a b

/-- what reading does not change -/
structure Kept (zr zr' : ZReader C) : Prop where
  fmt : zr'.fmt = zr.fmt
  start : zr'.start = zr.start
  iz : zr'.ignoreZero = zr.ignoreZero
  is : zr'.ignoreSize = zr.ignoreSize
  cap : zr'.cap = zr.cap
  params : zr'.params = zr.params

theorem Kept.refl (zr : ZReader C) : Kept zr zr := ⟨rfl, rfl, rfl, rfl, rfl, rfl⟩
theorem Kept.trans {a b d : ZReader C} (h : Kept a b) (g : Kept b d) : Kept a d :=
  ⟨g.fmt.trans h.fmt, g.start.trans h.start, g.iz.trans h.iz, g.is.trans h.is, g.cap.trans h.cap, g.params.trans h.params⟩

theorem readRec_kept : ∀ (f : Nat) (zr : ZReader C) (q : Request) (r : Int × ZReader C × Request), readRec f zr q = .ok r → Kept zr r.2.1 ∧ r.2.1.sampler = zr.sampler
  | 0, _, _, _, e => by cases e
  | f + 1, zr, q, r, e => by
    rw [readRec] at e
    obtain ⟨t, _, e⟩ := Res.bind_eq_ok.1 e
    split at e
    · injection e with e; subst e; exact ⟨⟨rfl, rfl, rfl, rfl, rfl, rfl⟩, rfl⟩
    · obtain ⟨x, _, e⟩ := Res.bind_eq_ok.1 e
      split at e
      · have := readRec_kept f _ _ _ e
        exact ⟨⟨this.1.fmt, this.1.start, this.1.iz, this.1.is, this.1.cap, this.1.params⟩, this.2⟩
      · injection e with e; subst e; exact ⟨⟨rfl, rfl, rfl, rfl, rfl, rfl⟩, rfl⟩

theorem readPre_kept {lim : Nat} {zr : ZReader C} {q : Request} {r : Bool × Int × ZReader C × Request} (e : readPre lim zr q = .ok r) : Kept zr r.2.2.1 ∧ r.2.2.1.sampler = zr.sampler := by
  unfold readPre at e
  split at e
  · injection e with e; subst e; exact ⟨Kept.refl _, rfl⟩
  · split at e
    · injection e with e; subst e; exact ⟨Kept.refl _, rfl⟩
    · obtain ⟨t, h, e⟩ := Res.bind_eq_ok.1 e
      injection e with e; subst e
      have := readRec_kept _ _ _ _ h
      exact ⟨⟨this.1.fmt, this.1.start, this.1.iz, this.1.is, this.1.cap, this.1.params⟩, this.2⟩

theorem readPlain_kept {lim : Nat} {zr : ZReader C} {q : Request} {r : Int × ZReader C × Request} (e : readPlain lim zr q = .ok r) : Kept zr r.2.1 ∧ r.2.1.sampler = zr.sampler := by
  unfold readPlain at e
  obtain ⟨t, h, e⟩ := Res.bind_eq_ok.1 e
  have := readPre_kept h
  split at e
  · injection e with e; subst e; exact this
  · injection e with e; subst e; exact this

theorem sampleLoop_kept (hash : Nat → Nat) {lim : Nat} {inv : Nat} : ∀ (f : Nat) (zr : ZReader C) (st : Int) (q : Request) (r : Bool × Int × Sampler × ZReader C × Request),
    sampleLoop hash lim f (.spatial inv) zr st q = .ok r → Kept zr r.2.2.2.1 ∧ r.2.2.1 = .spatial inv
  | 0, _, _, _, _, e => by cases e
  | f + 1, zr, st, q, r, e => by
    rw [sampleLoop] at e
    obtain ⟨t, h, e⟩ := Res.bind_eq_ok.1 e
    have ht : t.2.1 = .spatial inv := by
      unfold Sampler.sample at h
      obtain ⟨u, _, h⟩ := Res.bind_eq_ok.1 h
      injection h with h; subst h; rfl
    split at e
    · injection e with e; subst e; exact ⟨Kept.refl _, ht⟩
    · obtain ⟨u, h2, e⟩ := Res.bind_eq_ok.1 e
      have hk := readPlain_kept h2
      split at e
      · injection e with e; subst e; exact ⟨hk.1, ht⟩
      · rw [ht] at e
        have := sampleLoop_kept hash f _ _ _ _ e
        exact ⟨hk.1.trans this.1, this.2⟩

theorem readOne_kept (hash : Nat → Nat) {lim : Nat} {zr : ZReader C} {q : Request} {r : Int × ZReader C × Request} (hn : NotTemporal zr.sampler) (e : readOne hash lim zr q = .ok r) :
    Kept zr r.2.1 ∧ r.2.1.sampler = zr.sampler := by
  unfold readOne at e
  cases hs : zr.sampler with
  | none => rw [hs] at e; dsimp only at e; rw [← hs]; exact readPlain_kept e
  | some s =>
    rw [hs] at e hn
    cases s with
    | temporal a b => exact hn.elim
    | spatial inv =>
      dsimp only at e
      obtain ⟨t, h, e⟩ := Res.bind_eq_ok.1 e
      have hk := readPre_kept h
      split at e
      · injection e with e; subst e; exact ⟨hk.1, by rw [hk.2, hs]⟩
      · obtain ⟨u, h2, e⟩ := Res.bind_eq_ok.1 e
        have hl := sampleLoop_kept hash _ _ _ _ _ h2
        have h3 : Kept zr u.2.2.2.1 := Kept.trans (b := { t.2.2.1 with sampler := none }) ⟨hk.1.fmt, hk.1.start, hk.1.iz, hk.1.is, hk.1.cap, hk.1.params⟩ hl.1
        split at e
        · injection e with e; subst e; exact ⟨⟨h3.fmt, h3.start, h3.iz, h3.is, h3.cap, h3.params⟩, by show some u.2.2.1 = _; rw [hl.2]⟩
        · injection e with e; subst e; exact ⟨⟨h3.fmt, h3.start, h3.iz, h3.is, h3.cap, h3.params⟩, by show some u.2.2.1 = _; rw [hl.2]⟩

theorem readAll_kept (hash : Nat → Nat) {lim : Nat} : ∀ (f : Nat) (zr : ZReader C) (q : Request) (r : List Request × ZReader C), NotTemporal zr.sampler → readAll hash lim f zr q = .ok r →
    Kept zr r.2 ∧ r.2.sampler = zr.sampler
  | 0, _, _, _, _, e => by cases e
  | f + 1, zr, q, r, hn, e => by
    rw [readAll] at e
    obtain ⟨t, h, e⟩ := Res.bind_eq_ok.1 e
    have hk := readOne_kept hash hn h
    split at e
    · injection e with e; subst e; exact hk
    · obtain ⟨u, h2, e⟩ := Res.bind_eq_ok.1 e
      injection e with e; subst e
      have := readAll_kept hash f _ _ _ (by rw [hk.2]; exact hn) h2
      exact ⟨hk.1.trans this.1, this.2.trans hk.2⟩

/-- after the whole file has been read, rewinding it starts again -/
theorem reset_inv {zr : ZReader C} (hne : comp ≠ []) (h : Dead D os zr) (hw : Whole D os) : ZInv D (reset zr).z 0 := by
  obtain ⟨off, hv, ho, j, hj⟩ := h.inv
  have ho := ho hw
  obtain ⟨he1, he2, he3⟩ := h.ended
  have hout : zr.z.out.length = 0 := by
    by_contra hne
    cases j with
    | zero => omega
    | succ j =>
      rw [Nat.succ_mul] at hj
      cases j with
      | zero => omega
      | succ j => rw [Nat.succ_mul] at hj; omega
  obtain ⟨m, h1, h4, h5, h6, h7⟩ := inp_pos hv he1
  have hp : zr.z.pos = comp.length := Nat.le_antisymm hv.pos (by rw [← hv.file]; exact he2)
  have hm : m = data.length := by omega
  subst hm
  rw [hp] at h1
  refine ⟨hv.file, hv.size, Nat.zero_le _, by show zr.z.out.length ≤ zr.z.outSize; omega, 0, 0, D.again _ h1, Nat.le_refl _, ?_, ?_, Nat.zero_le _, ?_, ?_⟩
  · show zr.z.inp = _; rw [he1]; simp [reset]
  · show 0 + zr.z.out.length = 0; omega
  · show zr.z.out = List.take zr.z.out.length _; rw [hout]; exact List.length_eq_zero_iff.1 hout
  · intro hc hl
    exact absurd (List.length_eq_zero_iff.1 hc.symm) hne

/-- the freshly opened readers -/
theorem sim_setup {F : Fmt} {p : Params} {inSize : Nat} (hi : 0 < inSize) (hc : comp ≠ []) (h0 : p.start = 0) (hp : 0 < F.item) (ho : F.item ≤ os) (hw : Within F) {n : Nat}
    (hd : data.length = n * F.item) :
    ∃ zr, setup C inSize os F comp p = .ok zr ∧ Sim D os p.cap zr (fresh F data p) := by
  have hl : 0 < comp.length := List.length_pos_iff.2 hc
  refine ⟨_, if_neg (by omega), rfl, rfl, ⟨rfl, hi, Nat.zero_le _, Nat.zero_le _, 0, 0, D.init, Nat.le_refl _, ?_, ?_, Nat.zero_le _, ?_, fun h => by omega⟩, rfl, ?_, rfl, rfl, rfl, rfl, rfl, rfl, ?_, hp, ho, hw, rfl⟩
  · show ([] : List Nat) = _; simp [create]
  · show p.start + 0 = 0; omega
  · show ([] : List Nat) = List.take 0 _; simp
  · show p.start < _; omega
  · exact ⟨n, by show p.start + n * F.item = _; omega⟩

end Verif.Reader.Zstd
