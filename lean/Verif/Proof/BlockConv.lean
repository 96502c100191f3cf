import Verif.Spec.BlockConv
import Verif.Proof.CliArgs
/-!
# Proofs about converting block traces
-/

namespace Verif.BlockConv
open Verif Verif.Cli Verif.CLib Verif.Spec.Block Verif.Spec.Csv

/-! ## Parsing -/

theorem comma_dec (n : Nat) : 44 ∉ dec n := fun h => by have := (dec_digit n 44 h).1; omega

theorem tok_dec (n : Nat) (r : Str) : tok (dec n ++ 44 :: r) = .ok (dec n, r) := by
  unfold tok; rw [strtok_comma (dec_ne_nil n) (comma_dec n)]

theorem tok_last (n : Nat) : tok (dec n) = .ok (dec n, []) := by
  unfold tok; rw [strtok_last (dec_ne_nil n) (comma_dec n)]

theorem tok_char (c : Nat) (hc : c ≠ 44) (r : Str) : tok ([c] ++ 44 :: r) = .ok ([c], r) := by
  unfold tok; rw [strtok_comma (by simp) (by simpa using fun h : 44 = c => hc h.symm)]

theorem strtol10_dec {n : Nat} (h : n < 2 ^ 63) : strtol10 (dec n) = n := by
  apply strtol10_of _ h
  have := signed_digits (t := []) (dec_digit n) (dec_ne_nil n) (fun c hc => by cases hc)
  rwa [List.append_nil, number_dec] at this

theorem atoi_dec {n : Nat} (h : n < 2 ^ 31) : atoi (dec n) = n := by
  unfold atoi
  rw [strtol10_dec (by omega)]
  omega

theorem toU_nat {k n : Nat} (h : n < 2 ^ k) : toU k (n : Int) = n := by
  unfold toU
  rw [← Int.natCast_emod, Int.toNat_natCast, Nat.mod_eq_of_lt h]

theorem strtok_nil : strtok 44 [] = none := rfl

/-- what an operation is parsed to -/
def parsed (tick sector : Nat) (o : BlockOp) : TReq := ⟨o.time / tick, o.off + o.dev, o.size * sector, if o.write then 3 else 1, o.dev⟩

theorem id_ok {off dev : Nat} (h1 : off < 2 ^ 63) (h2 : dev < 65536) : (off + dev) % 2 ^ 64 = off + dev := Nat.mod_eq_of_lt (by omega)

theorem alibaba_ok {o : BlockOp} (h : AlibabaFits o) : parseAlibaba (alibabaLine o) = .ok (parsed 1000000 1 o) := by
  obtain ⟨h1, h2, h3, h4, h5⟩ := h
  have hc : (if o.write then 87 else 82) ≠ 44 := by split <;> decide
  have hdiv : ((o.time : Int)).tdiv 1000000 = ((o.time / 1000000 : Nat) : Int) := by
    rw [Int.tdiv_eq_ediv_of_nonneg (by omega)]; omega
  unfold parseAlibaba alibabaLine atoll
  simp only [tok_dec, tok_char _ hc, tok_last, bind, Except.bind, strtok_nil, if_true, strtol10_dec h2, strtol10_dec h5, atoi_dec (show o.dev < 2 ^ 31 by omega), atoi_dec h3, hdiv]
  rw [toU_nat (show o.dev < 2 ^ 16 by omega), toU_nat (show o.off < 2 ^ 64 by omega), toU_nat (show o.size < 2 ^ 32 by omega), toU_nat (show o.time / 1000000 < 2 ^ 32 by omega), id_ok h2 h1]
  unfold parsed
  cases o.write <;> simp

theorem tencent_ok {o : BlockOp} (h : TencentFits o) : parseTencent (tencentLine o) = .ok (parsed 1 512 o) := by
  obtain ⟨h1, h2, h3, h4⟩ := h
  have hc : (if o.write then 49 else 48) ≠ 44 := by split <;> decide
  have hsz : (o.size : Int) * 512 = ((o.size * 512 : Nat) : Int) := by omega
  unfold parseTencent tencentLine atoll
  simp only [tok_dec, tok_char _ hc, tok_last, bind, Except.bind, strtok_nil, if_true, strtol10_dec h2, atoi_dec (show o.dev < 2 ^ 31 by omega), atoi_dec (show o.size < 2 ^ 31 by omega), atoi_dec h4, hsz]
  rw [if_pos (by omega), toU_nat (show o.dev < 2 ^ 16 by omega), toU_nat (show o.off < 2 ^ 64 by omega), toU_nat (show o.size * 512 < 2 ^ 32 by omega), toU_nat (show o.time < 2 ^ 32 by omega), id_ok h2 h1]
  unfold parsed
  cases o.write <;> simp

/-! ## The loop -/

/-- what a request becomes -/
def shift (t0 : Nat) (q : TReq) : TReq := { q with ts := q.ts - t0 }

structure Inv (ext per : Bool) (B t0 : Nat) (seen : List TReq) (st : St) : Prop where
  start : seen ≠ [] → st.start = t0
  start0 : seen = [] → st.start = u32 - 1
  main : st.main = (seen.map (shift t0)).map (out ext)
  all : per = true → ∀ n, (st.files n).getD [] ++ (st.buf n).map (out ext) = ((seen.filter fun q => q.ns = n).map (shift t0)).map (out ext)
  noFile : per = true → ∀ n, st.files n = none ↔ (seen.filter fun q => q.ns = n).length < B
  off : per = false → ∀ n, st.files n = none

theorem step_inv {ext per : Bool} {B t0 : Nat} {seen : List TReq} {st : St} (h : Inv ext per B t0 seen st) {q : TReq} (h0 : seen = [] → q.ts = t0) (hq : t0 ≤ q.ts ∧ q.ts < u32 - 1) (hns : q.ns < 65536) :
    ∃ st', step ext per B st q = .ok st' ∧ Inv ext per B t0 (seen ++ [q]) st' := by
  have hstart : (if st.start = u32 - 1 then q.ts else st.start) = t0 := by
    by_cases hs : seen = []
    · rw [if_pos (h.start0 hs), h0 hs]
    · rw [h.start hs, if_neg (by omega)]
  have hts : (q.ts + u32 - t0) % u32 = q.ts - t0 := by
    simp only [u32] at hq ⊢
    omega
  have hmain : st.main ++ [out ext (shift t0 q)] = ((seen ++ [q]).map (shift t0)).map (out ext) := by
    rw [h.main]; simp
  have hfil : ∀ n, (seen ++ [q]).filter (fun q => q.ns = n) = if q.ns = n then seen.filter (fun q => q.ns = n) ++ [q] else seen.filter (fun q => q.ns = n) := by
    intro n
    rw [List.filter_append]
    by_cases hn : q.ns = n <;> simp [hn]
  unfold step
  simp only [hstart, hts]
  have hsq : ({ q with ts := q.ts - t0 } : TReq) = shift t0 q := rfl
  simp only [hsq]
  cases per with
  | false => exact ⟨_, if_neg (by simp), fun _ => rfl, fun hx => by simp at hx, hmain, fun hx => (by cases hx), fun hx => (by cases hx), fun _ => h.off rfl⟩
  | true =>
    have hall := h.all rfl
    have hnone := h.noFile rfl
    have hlen : ∀ n, ((st.files n).getD []).length + (st.buf n).length = (seen.filter fun q => q.ns = n).length := by
      intro n
      have := congrArg List.length (hall n)
      simpa using this
    rw [if_pos rfl]
    by_cases hb : (st.buf q.ns ++ [shift t0 q]).length ≥ B
    · rw [if_pos hb, if_neg (by omega)]
      refine ⟨_, rfl, fun _ => rfl, fun hx => by simp at hx, hmain, fun _ n => ?_, fun _ n => ?_, fun hx => by cases hx⟩
      · rw [hfil]
        by_cases hn : q.ns = n
        · subst hn
          simp only [if_true, Option.getD_some, List.map_nil, List.append_nil, List.map_append, List.map_cons]
          rw [← hall q.ns, List.append_assoc]
        · simpa [show ¬ n = q.ns from fun x => hn x.symm, hn] using hall n
      · rw [hfil]
        by_cases hn : q.ns = n
        · subst hn
          simp only [if_true, reduceCtorEq, List.length_append, List.length_singleton, false_iff, Nat.not_lt]
          have := hlen q.ns
          simp only [List.length_append, List.length_singleton] at hb
          omega
        · simpa [show ¬ n = q.ns from fun x => hn x.symm, hn] using hnone n
    · rw [if_neg hb]
      simp only [List.length_append, List.length_singleton] at hb
      refine ⟨_, rfl, fun _ => rfl, fun hx => by simp at hx, hmain, fun _ n => ?_, fun _ n => ?_, fun hx => by cases hx⟩
      · rw [hfil]
        by_cases hn : q.ns = n
        · subst hn
          simp only [if_true, List.map_append, List.map_cons, List.map_nil]
          rw [← hall q.ns, List.append_assoc]
        · simpa [show ¬ n = q.ns from fun x => hn x.symm, hn] using hall n
      · rw [hfil]
        by_cases hn : q.ns = n
        · subst hn
          simp only [if_true, List.length_append, List.length_singleton]
          have h1 := hlen q.ns
          have h2 := hnone q.ns
          constructor
          · intro hf
            rw [hf] at h1
            simp only [Option.getD_none, List.length_nil] at h1
            omega
          · intro hl
            exact h2.2 (by omega)
        · simpa [hn] using hnone n

theorem loop_inv {parse : Str → Res TReq} {line : BlockOp → Str} {p : BlockOp → TReq} {ext per : Bool} {B t0 : Nat} : ∀ (os : List BlockOp) (seen : List TReq) (st : St), Inv ext per B t0 seen st →
    (seen = [] → ∀ o, os.head? = some o → (p o).ts = t0) → (∀ o ∈ os, parse (line o) = .ok (p o) ∧ (t0 ≤ (p o).ts ∧ (p o).ts < u32 - 1) ∧ (p o).ns < 65536) →
    ∃ st', loop parse ext per B st (os.map line) = .ok st' ∧ Inv ext per B t0 (seen ++ os.map p) st'
  | [], seen, st, h, _, _ => ⟨st, rfl, by simpa using h⟩
  | o :: os, seen, st, h, h0, hq => by
    obtain ⟨e1, e2, e3⟩ := hq o (List.mem_cons_self ..)
    obtain ⟨s1, a1, a2⟩ := step_inv h (fun hs => h0 hs o rfl) e2 e3
    obtain ⟨s2, b1, b2⟩ := loop_inv (parse := parse) (line := line) (p := p) os (seen ++ [p o]) s1 a2 (fun hs => by simp at hs) (fun x hx => hq x (List.mem_cons_of_mem _ hx))
    refine ⟨s2, ?_, ?_⟩
    · show (parse (line o) >>= fun q => step ext per B st q >>= fun st1 => loop parse ext per B st1 (os.map line)) = _
      rw [e1]
      show (step ext per B st (p o) >>= fun st1 => loop parse ext per B st1 (os.map line)) = _
      rw [a1]
      exact b1
    · rw [List.append_assoc] at b2
      exact b2

theorem convert_ok {parse : Str → Res TReq} {line : BlockOp → Str} {tick sector : Nat} {ext per : Bool} {B t0 : Nat} (hB : 0 < B) (os : List BlockOp)
    (hp : ∀ o ∈ os, parse (line o) = .ok (parsed tick sector o) ∧ o.time / tick < u32 - 1 ∧ o.dev < 65536) (hf : From tick t0 os) :
    ∃ files, convert parse ext per B (os.map line) = .ok (os.map (record tick sector ext t0), files) ∧
      ∀ n, files n = if per = false ∨ (os.filter fun o => o.dev = n).length < B then none else some ((os.filter fun o => o.dev = n).map (record tick sector ext t0)) := by
  obtain ⟨st, e, h⟩ := loop_inv (parse := parse) (line := line) (p := parsed tick sector) (ext := ext) (per := per) (B := B) (t0 := t0) os [] {}
    ⟨fun h => absurd rfl h, fun _ => rfl, rfl, fun _ n => rfl, fun _ n => by simp [hB], fun _ n => rfl⟩ (fun _ o ho => hf.1 o ho)
    (fun o ho => ⟨(hp o ho).1, ⟨hf.2 o ho, (hp o ho).2.1⟩, (hp o ho).2.2⟩)
  rw [List.nil_append] at h
  have hrec : ∀ o, o.dev < 65536 → out ext (shift t0 (parsed tick sector o)) = record tick sector ext t0 o := by
    intro o ho
    unfold out shift parsed record
    simp only [Nat.mod_eq_of_lt ho]
  refine ⟨flush ext st, ?_, ?_⟩
  · unfold convert
    rw [e]
    show Except.ok (st.main, flush ext st) = _
    rw [h.main, List.map_map, List.map_map]
    congr 2
    exact List.map_congr_left fun o ho => hrec o (hp o ho).2.2
  · intro n
    unfold flush
    cases per with
    | false => rw [h.off rfl n, if_pos (.inl rfl)]; rfl
    | true =>
      have h1 := h.all rfl n
      have h2 := h.noFile rfl n
      have efil : ((os.map (parsed tick sector)).filter fun q => q.ns = n) = (os.filter fun o => o.dev = n).map (parsed tick sector) := by
        rw [List.filter_map]; rfl
      rw [efil] at h1 h2
      rw [List.length_map] at h2
      cases hf : st.files n with
      | none => rw [if_pos (.inr (h2.1 hf))]; rfl
      | some l =>
        rw [if_neg (by
          rintro (hl | hl)
          · cases hl
          · rw [h2.2 hl] at hf; cases hf)]
        rw [hf] at h1
        simp only [Option.getD_some] at h1
        rw [Option.map_some, h1, List.map_map, List.map_map]
        congr 1
        exact List.map_congr_left fun o ho => hrec o (hp o (List.mem_filter.1 ho).1).2.2

end Verif.BlockConv
