import Verif.Proof.SingleBase
import Verif.Prefetch.OBL
import Verif.Spec.Prefetch
import Mathlib.Data.Nat.ModEq
/-!
# Caches with a prefetcher
-/

namespace Verif.Prefetch
open Verif Verif.Spec Verif.Spec.Prefetch
variable {σ μ : Type} {A : Algo σ} {base : σ → Base μ} {setBase : σ → Base μ → σ} {Inv : σ → Prop} {cs md : Nat} {p : Perms} {ok : Req → Prop}

theorem makeRoom_spec (S : SBSpec A base setBase Inv cs md p ok) (hp : p.ev = true) {need : Nat} (hneed : need ≤ cs) (q : Req) :
    ∀ (m : Nat) {s : σ}, Inv s → (base s).tbl.length ≤ m →
      ∃ s' vs, makeRoom A need q m s = .ok s' ∧ Inv s' ∧ (base s).cached.Perm (vs ++ (base s').cached) ∧
        (base s').occ + (need : Int) ≤ (cs : Int) ∧ ∀ us v, vs = us ++ [v] → charge md (v :: (base s').cached) + need > cs := by
  intro m
  induction m with
  | zero =>
    intro s hi hm
    have h0 : (base s).tbl = [] := List.eq_nil_of_length_eq_zero (by omega)
    have ho : (base s).occ = 0 := by rw [(S.inv hi).inv.occ_eq]; simp [Base.cached, h0, charge]
    refine ⟨s, [], ?_, hi, List.Perm.refl _, by omega, by simp⟩
    rw [makeRoom, if_neg]
    rw [S.occ, S.csz, (S.inv hi).cs, ho]; omega
  | succ m ih =>
    intro s hi hm
    rw [makeRoom]
    by_cases hc : A.occ s + (need : Int) > (A.cacheSize s : Int)
    · rw [if_pos hc]
      have hc' := hc
      rw [S.occ, S.csz, (S.inv hi).cs] at hc'
      have hne : (base s).tbl ≠ [] := by
        intro h0
        have ho : (base s).occ = 0 := by rw [(S.inv hi).inv.occ_eq]; simp [Base.cached, h0, charge]
        omega
      obtain ⟨s1, v, h1, h2, h3⟩ := S.evict q hi hne (.inl hp)
      have hl : (base s1).tbl.length ≤ m := by
        have := h3.length_eq
        simp only [Base.cached, List.length_cons, List.length_map] at this
        omega
      obtain ⟨s', vs, g1, g2, g3, g4, g5⟩ := ih h2 hl
      refine ⟨s', v :: vs, ?_, g2, h3.trans (List.Perm.cons v g3), g4, ?_⟩
      · simp only [h1, Res.bind_ok, g1]
      · intro us w hw
        cases us with
        | nil =>
          simp only [List.nil_append, List.cons.injEq] at hw
          obtain ⟨rfl, rfl⟩ := hw
          have e := charge_perm (md := md) h3
          have e2 := charge_perm (md := md) g3
          have := (S.inv hi).inv.occ_eq
          rw [(S.inv hi).md] at this
          simp only [charge, List.nil_append] at e e2 ⊢
          omega
        | cons u us =>
          simp only [List.cons_append, List.cons.injEq] at hw
          exact g5 us w hw.2
    · rw [if_neg hc]
      rw [S.occ, S.csz, (S.inv hi).cs] at hc
      exact ⟨s, [], rfl, hi, List.Perm.refl _, by omega, by simp⟩

theorem fetch_spec (S : SBSpec A base setBase Inv cs md p ok) (hp : p.ev = true) {need : Nat} (hneed : need ≤ cs) (q r : Req) (hok : ok r) (hr : r.size + md ≤ need)
    {s : σ} (hi : Inv s) :
    ∃ b s', fetch A need q r s = .ok (b, s') ∧ Inv s' ∧ (b = false → s' = s) ∧
      Fetched cs md need (base s).cached (r.id, r.size % u32) (base s').cached := by
  rw [fetch, S.findF r hi, Res.bind_ok]
  cases hl : (base s).lookup r.id with
  | some o =>
    refine ⟨false, s, rfl, hi, fun _ => rfl, .inl ⟨?_, rfl⟩⟩
    have := lookup_isSome_iff (b := base s) (id := r.id)
    rw [hl] at this
    simpa using this
  | none =>
    have hn := lookup_none_iff'.1 hl
    have hlen : (base s).tbl.length ≤ (A.nObj s).toNat := by
      rw [S.nObj, (S.inv hi).inv.nObj_eq]; simp
    obtain ⟨s1, vs, h1, h2, h3, h4, h5⟩ := makeRoom_spec S hp hneed q _ hi hlen
    have hn1 : r.id ∉ (base s1).cached.ids := by
      intro h
      apply hn
      obtain ⟨x, hx, e⟩ := List.mem_map.1 h
      exact List.mem_map.2 ⟨x, h3.mem_iff.2 (List.mem_append_right _ hx), e⟩
    obtain ⟨s2, g1, g2, g3⟩ := S.insert r h2 (lookup_none_iff'.2 hn1) (by omega) hok
    refine ⟨true, s2, ?_, g2, by simp, .inr ⟨hn, vs, (base s1).cached, h3, g3, ?_⟩⟩
    · simp only [Option.isSome_none, Bool.false_eq_true, if_false, h1, Res.bind_ok, g1]
    · intro us v e
      rw [bytes_eq_charge]; exact h5 us v e

theorem consistent (S : SBSpec A base setBase Inv cs md p ok) {s : σ} (hi : Inv s) : Consistent A (fun s => (base s).cached) cs md s := by
  refine ⟨?_, ?_, ?_, ?_⟩
  · rw [S.occ]; have := (S.inv hi).inv.cap; rw [(S.inv hi).cs] at this; exact this
  · rw [S.occ, (S.inv hi).inv.occ_eq, (S.inv hi).md, bytes_eq_charge]
  · rw [S.nObj, (S.inv hi).inv.nObj_eq]; simp [Base.cached]
  · rw [Contents.ids, map_id_eq]; exact (S.inv hi).inv.nodup

namespace OBL

/-- The array holds the last `k` ids. -/
structure Rel (k block : Nat) (past : List ObjId) (o : State) : Prop where
  kz : o.k = k
  bz : o.block = block
  cur : o.cur < k
  prev : ∀ i < k, o.prev ((o.cur + 1 + i) % k) = (past.reverse[k - 1 - i]?).getD (u64 - 1)
  off : o.doPrefetch = false

theorem rel_create {k : Nat} (hk : 1 ≤ k) (block : Nat) : Rel k block [] (create block k) :=
  ⟨rfl, rfl, hk, fun i _ => by simp [create], rfl⟩

/-- What the array must hold. -/
def Match (k : Nat) (past : List ObjId) (id : Nat) : Prop := ∀ i < k, (past.reverse[k - 1 - i]?).getD (u64 - 1) = (id + u64 - k + i) % u64

theorem handleFind_spec {k block : Nat} {past : List ObjId} {o : State} (h : Rel k block past o) (r : Req) :
    Rel k block (past ++ [r.id]) { handleFind o r with doPrefetch := false } ∧ ((handleFind o r).doPrefetch = true ↔ Match k past r.id) := by
  have hk : 0 < k := Nat.lt_of_le_of_lt (Nat.zero_le _) h.cur
  have hc := h.cur
  refine ⟨⟨h.kz, h.bz, ?_, ?_, rfl⟩, ?_⟩
  · show (o.cur + 1) % o.k < k
    rw [h.kz]; exact Nat.mod_lt _ hk
  · intro i hi
    show (if ((o.cur + 1) % o.k + 1 + i) % k = (o.cur + 1) % o.k then r.id else o.prev (((o.cur + 1) % o.k + 1 + i) % k)) = _
    rw [h.kz, List.reverse_append, List.reverse_singleton, List.singleton_append]
    have e1 : ((o.cur + 1) % k + 1 + i) % k = (o.cur + 2 + i) % k := by
      rw [Nat.add_assoc, Nat.mod_add_mod]; congr 1; omega
    rw [e1]
    by_cases hl : i = k - 1
    · subst hl
      have e2 : (o.cur + 2 + (k - 1)) % k = (o.cur + 1) % k := by
        rw [show o.cur + 2 + (k - 1) = o.cur + 1 + k by omega, Nat.add_mod_right]
      rw [if_pos e2, Nat.sub_self]; rfl
    · have hne : (o.cur + 2 + i) % k ≠ (o.cur + 1) % k := by
        intro e
        have e3 : (o.cur + 1 + (i + 1)) % k = (o.cur + 1 + 0) % k := by rw [show o.cur + 1 + (i + 1) = o.cur + 2 + i by omega]; exact e
        have := Nat.ModEq.add_left_cancel' (o.cur + 1) (show Nat.ModEq k (o.cur + 1 + (i + 1)) (o.cur + 1 + 0) from e3)
        have h2 : (i + 1) % k = 0 % k := this
        rw [Nat.mod_eq_of_lt (by omega), Nat.zero_mod] at h2
        omega
      rw [if_neg hne, show o.cur + 2 + i = o.cur + 1 + (i + 1) by omega, h.prev (i + 1) (by omega)]
      rw [show k - 1 - i = (k - 1 - (i + 1)) + 1 by omega, List.getElem?_cons_succ]
  · show ((List.range o.k).all _ = true) ↔ _
    rw [h.kz, List.all_eq_true]
    constructor
    · intro hall i hi
      have := hall i (List.mem_range.2 hi)
      rw [beq_iff_eq] at this
      rw [← h.prev i hi]; exact this
    · intro hm i hi
      rw [beq_iff_eq, h.prev i (List.mem_range.1 hi)]
      exact hm i (List.mem_range.1 hi)

/-- With enough requests behind us, or an id that is not too small, the array matches exactly if the ids are in sequence. -/
theorem match_big {k : Nat} {past : List ObjId} {id : Nat} (hk : k < u64) (hid : id < u64 - 1) (hz : k ≤ id) :
    Match k past id ↔ Sequential k past id := by
  have hu : u64 = 18446744073709551616 := rfl
  have hmod : ∀ i < k, (id + u64 - k + i) % u64 = id - k + i := by
    intro i hi
    rw [show id + u64 - k + i = (id - k + i) + u64 by omega, Nat.add_mod_right, Nat.mod_eq_of_lt (by omega)]
  constructor
  · intro hm
    have hlen : k ≤ past.length := by
      by_contra hlt
      have h0 := hm 0 (by omega)
      rw [hmod 0 (by omega), List.getElem?_eq_none (by rw [List.length_reverse]; omega)] at h0
      have h1 : (u64 - 1 : Nat) = id - k + 0 := h0
      omega
    refine ⟨hz, past.take (past.length - k), ?_⟩
    conv => lhs; rw [← List.take_append_drop (past.length - k) past]
    congr 1
    apply List.ext_getElem?
    intro i
    by_cases hi : i < k
    · have := hm i hi
      rw [hmod i hi, List.getElem?_reverse (by omega)] at this
      rw [show past.length - 1 - (k - 1 - i) = past.length - k + i by omega] at this
      have hlt : past.length - k + i < past.length := by omega
      rw [List.getElem?_drop, List.getElem?_map, List.getElem?_range hi]
      rw [List.getElem?_eq_getElem hlt] at this ⊢
      simpa using this
    · rw [List.getElem?_eq_none (by rw [List.length_drop]; omega), List.getElem?_eq_none (by simp; omega)]
  · rintro ⟨_, pre, rfl⟩ i hi
    rw [hmod i hi, List.reverse_append, List.getElem?_append_left (by simp; omega), List.getElem?_reverse (by simp; omega)]
    simp only [List.length_map, List.length_range]
    rw [show k - 1 - (k - 1 - i) = i by omega, List.getElem?_map, List.getElem?_range hi]
    rfl

theorem match_small {k : Nat} {past : List ObjId} {id : Nat} (hk : k < u64) (h : k ≤ past.length) (hz : id < k) :
    Match k past id → u64 - 1 ∈ past := by
  have hu : u64 = 18446744073709551616 := rfl
  intro hm
  have := hm (k - 1 - id) (by omega)
  rw [show id + u64 - k + (k - 1 - id) = u64 - 1 by omega, Nat.mod_eq_of_lt (by omega), show k - 1 - (k - 1 - id) = id by omega] at this
  rw [List.getElem?_eq_getElem (by rw [List.length_reverse]; omega), Option.getD_some] at this
  rw [← this]
  exact List.mem_reverse.1 (List.getElem_mem _)

theorem match_iff {k : Nat} {past : List ObjId} {id : Nat} (hk : k < u64) (hid : id < u64 - 1) (hpast : ∀ x ∈ past, x < u64 - 1) (h : k ≤ past.length ∨ k ≤ id) :
    Match k past id ↔ Sequential k past id := by
  by_cases hz : k ≤ id
  · exact match_big hk hid hz
  · rcases h with h | h
    · exact ⟨fun hm => absurd (hpast _ (match_small hk h (by omega) hm)) (Nat.lt_irrefl _), fun hs => absurd hs.1 hz⟩
    · exact absurd h hz

variable (S : SBSpec A base setBase Inv cs 0 p ok) (hp : p.ev = true) (hok : ∀ r, ok r) {k block : Nat} (hb : block ≤ cs)
include S hp hok hb

theorem get_spec {past : List ObjId} {s : σ × State} (hi : Inv s.1) (h : Rel k block past s.2) (r : Req) :
    ∃ c s', A.get s.1 r = .ok (decide (r.id ∈ (base s.1).cached.ids), c) ∧ get A (hooks σ) s r = .ok (decide (r.id ∈ (base s.1).cached.ids), s') ∧ Inv s'.1 ∧
      Rel k block (past ++ [r.id]) s'.2 ∧
      (Match k past r.id → Fetched cs 0 block (base c).cached ((r.id + 1) % u64, block % u32) (base s'.1).cached) ∧ (¬ Match k past r.id → s'.1 = c) := by
  have C := S.strong (fun _ => ()) (fun _ _ _ => rfl)
  obtain ⟨c, h1, h2, _⟩ := C.toContract.get r (hok r) hi
  obtain ⟨g1, g2⟩ := handleFind_spec h r
  by_cases hm : Match k past r.id
  · obtain ⟨b, c', f1, f2, _, f3⟩ := fetch_spec S hp hb r (nextBlock (handleFind s.2 r) r) (hok _) (by
      show s.2.block + 0 ≤ block
      rw [h.bz]; omega) h2
    refine ⟨c, (c', { handleFind s.2 r with doPrefetch := false }), h1, ?_, f2, g1, fun _ => ?_, fun h => absurd hm h⟩
    · have hd := g2.2 hm
      have e : (handleFind s.2 r).block = block := h.bz
      rw [get, show (hooks σ).handleFind s.2 r = .ok (handleFind s.2 r) from rfl, Res.bind_ok, h1, Res.bind_ok]
      simp only []
      rw [show (hooks σ).prefetch A (c, handleFind s.2 r) r = prefetch A (c, handleFind s.2 r) r from rfl, prefetch, if_pos hd]
      simp only [e, f1, Res.bind_ok]
    · have e : (nextBlock (handleFind s.2 r) r).size = block := h.bz
      rw [e] at f3; exact f3
  · have hd : (handleFind s.2 r).doPrefetch = false := by
      cases hx : (handleFind s.2 r).doPrefetch with
      | false => rfl
      | true => exact absurd (g2.1 hx) hm
    refine ⟨c, (c, handleFind s.2 r), h1, ?_, h2, ?_, fun h => absurd h hm, fun _ => rfl⟩
    · rw [get, show (hooks σ).handleFind s.2 r = .ok (handleFind s.2 r) from rfl, Res.bind_ok, h1, Res.bind_ok]
      simp only []
      rw [show (hooks σ).prefetch A (c, handleFind s.2 r) r = prefetch A (c, handleFind s.2 r) r from rfl, prefetch, if_neg (by simp [hd])]
      rfl
    · have : ({ handleFind s.2 r with doPrefetch := false } : State) = handleFind s.2 r := by rw [← hd]
      rw [this] at g1; exact g1

theorem gets_spec : ∀ (rs : List Req) {past : List ObjId} {s : σ × State}, Inv s.1 → Rel k block past s.2 →
    ∃ out s', gets A (hooks σ) s rs = .ok (out, s') ∧ Inv s'.1 ∧ Rel k block (past ++ rs.map Req.id) s'.2 := by
  intro rs
  induction rs with
  | nil => intro past s hi h; exact ⟨[], s, rfl, hi, by simpa using h⟩
  | cons r rs ih =>
    intro past s hi h
    obtain ⟨c, s1, _, h2, h3, h4, _⟩ := get_spec S hp hok hb hi h r
    obtain ⟨out, s2, g1, g2, g3⟩ := ih h3 h4
    refine ⟨decide (r.id ∈ (base s.1).cached.ids) :: out, s2, ?_, g2, ?_⟩
    · rw [gets, h2, Res.bind_ok]; simp only [g1, Res.bind_ok]
    · simpa using g3

end OBL
end Verif.Prefetch
