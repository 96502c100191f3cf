import Verif.Data.Bloom
import Mathlib.Data.Nat.Bitwise
import Mathlib.Data.List.Basic
/-!
# C39: the Bloom filter
-/

namespace Verif.Bloom
open Verif

/-- is bit `x` of the buffer set? -/
def bit (bf : List Nat) (x : Nat) : Bool := ((bf[x >>> 3]?).getD 0).testBit (x % 8)

theorem and_mask (c m : Nat) : c &&& (1 <<< m) ≠ 0 ↔ c.testBit m = true := by
  rw [Nat.shiftLeft_eq, Nat.one_mul]
  constructor
  · intro h
    by_contra hn
    apply h
    apply Nat.eq_of_testBit_eq
    intro i
    rw [Nat.testBit_and, Nat.testBit_two_pow, Nat.zero_testBit]
    by_cases e : m = i
    · subst e; simpa using hn
    · simp [e]
  · intro h h0
    have : (c &&& 2 ^ m).testBit m = true := by rw [Nat.testBit_and, h, Nat.testBit_two_pow_self]; rfl
    rw [h0] at this; simp at this

theorem tbsb {bf : List Nat} {x : Nat} (hx : x >>> 3 < bf.length) (s : Bool) :
    ∃ bf', testBitSetBit bf x s = .ok (bit bf x, bf') ∧ bf'.length = bf.length ∧ (s = false → bf' = bf) ∧
      (s = true → bit bf' x = true) ∧ (∀ y, bit bf y = true → bit bf' y = true) ∧
      (∀ y, bit bf' y = true → bit bf y = true ∨ y = x) := by
  have hg : bf[x >>> 3]? = some bf[x >>> 3] := List.getElem?_eq_getElem hx
  have hb : bit bf x = (bf[x >>> 3]).testBit (x % 8) := by unfold bit; rw [hg]; rfl
  unfold testBitSetBit
  rw [hg]
  simp only [and_mask]
  by_cases h : (bf[x >>> 3]).testBit (x % 8) = true
  · rw [if_pos h]
    exact ⟨bf, by rw [hb, h], rfl, fun _ => rfl, fun _ => by rw [hb, h], fun y hy => hy, fun y hy => Or.inl hy⟩
  · rw [if_neg h]
    have hbf : bit bf x = false := by rw [hb]; simpa using h
    cases s with
    | false => exact ⟨bf, by rw [hbf]; rfl, rfl, fun _ => rfl, by simp, fun y hy => hy, fun y hy => Or.inl hy⟩
    | true =>
      have hset : ∀ y, bit (bf.set (x >>> 3) (bf[x >>> 3] ||| 1 <<< (x % 8))) y =
          (bit bf y || (decide (x >>> 3 = y >>> 3) && decide (x % 8 = y % 8))) := by
        intro y
        unfold bit
        rw [List.getElem?_set]
        by_cases e : x >>> 3 = y >>> 3
        · rw [if_pos e, if_pos hx, ← e, hg]
          simp only [Option.getD_some, Nat.testBit_or, Nat.shiftLeft_eq, Nat.one_mul, Nat.testBit_two_pow, decide_true, Bool.true_and]
        · rw [if_neg e]; simp [e]
      refine ⟨bf.set (x >>> 3) (bf[x >>> 3] ||| 1 <<< (x % 8)), by rw [hbf]; simp, by simp, by simp, fun _ => ?_, ?_, ?_⟩
      · rw [hset]; simp
      · intro y hy; rw [hset, hy]; rfl
      · intro y hy
        rw [hset] at hy
        simp only [Bool.or_eq_true, Bool.and_eq_true, decide_eq_true_eq] at hy
        rcases hy with hy | ⟨h1, h2⟩
        · exact Or.inl hy
        · rw [Nat.shiftRight_eq_div_pow, Nat.shiftRight_eq_div_pow] at h1
          exact Or.inr (by omega)

/-- the shape of an initialised filter -/
structure Ok (f : Filter) : Prop where
  ready : f.ready = true
  bits : 0 < f.bits
  room : f.bits ≤ 8 * f.bf.length

theorem idx_ok {f : Filter} (h : Ok f) (a b i : Nat) : idx a b f.bits i >>> 3 < f.bf.length := by
  have := Nat.mod_lt ((a + i * b) % 2 ^ 32) h.bits
  have := h.room
  rw [Nat.shiftRight_eq_div_pow]
  unfold idx; omega

theorem loop_add {a b bits : Nat} {n : Nat} (hn : ∀ i, idx a b bits i >>> 3 < n) :
    ∀ (is : List Nat) (hits : Nat) (bf : List Nat), bf.length = n →
    ∃ h bf', loop a b bits true is hits bf = .ok (some h, bf') ∧ bf'.length = n ∧
      (∀ i ∈ is, bit bf' (idx a b bits i) = true) ∧ (∀ y, bit bf y = true → bit bf' y = true) ∧
      ((∀ i ∈ is, bit bf (idx a b bits i) = true) → h = hits + is.length) ∧ h ≤ hits + is.length
  | [], hits, bf, hl => ⟨hits, bf, rfl, hl, by simp, fun y h => h, by simp, by simp⟩
  | i :: is, hits, bf, hl => by
    obtain ⟨bf1, e1, l1, _, s1, m1, _⟩ := tbsb (bf := bf) (x := idx a b bits i) (by rw [hl]; exact hn i) true
    cases hb : bit bf (idx a b bits i) with
    | true =>
      obtain ⟨h, bf', e, l, s, m, c, le⟩ := loop_add hn is (hits + 1) bf1 (l1.trans hl)
      refine ⟨h, bf', by rw [loop, e1, hb]; simpa using e, l, ?_, fun y hy => m y (m1 y hy), ?_, by simp; omega⟩
      · intro j hj
        rcases List.mem_cons.1 hj with rfl | hj
        · exact m _ (s1 rfl)
        · exact s j hj
      · intro hall
        rw [c (fun j hj => m1 _ (hall j (by simp [hj])))]; simp; omega
    | false =>
      obtain ⟨h, bf', e, l, s, m, c, le⟩ := loop_add hn is hits bf1 (l1.trans hl)
      refine ⟨h, bf', by rw [loop, e1, hb]; simpa using e, l, ?_, fun y hy => m y (m1 y hy), ?_, by simp; omega⟩
      · intro j hj
        rcases List.mem_cons.1 hj with rfl | hj
        · exact m _ (s1 rfl)
        · exact s j hj
      · intro hall
        have := hall i (by simp)
        rw [hb] at this; cases this

theorem loop_check {a b bits : Nat} (bf : List Nat) (hn : ∀ i, idx a b bits i >>> 3 < bf.length) :
    ∀ (is : List Nat) (hits : Nat),
    (∀ i ∈ is, bit bf (idx a b bits i) = true) ∧ loop a b bits false is hits bf = .ok (some (hits + is.length), bf) ∨
    (∃ i ∈ is, bit bf (idx a b bits i) = false) ∧ loop a b bits false is hits bf = .ok (none, bf)
  | [], hits => Or.inl ⟨by simp, rfl⟩
  | i :: is, hits => by
    obtain ⟨bf1, e1, _, k1, _⟩ := tbsb (bf := bf) (x := idx a b bits i) (hn i) false
    rw [k1 rfl] at e1
    cases hb : bit bf (idx a b bits i) with
    | true =>
      rcases loop_check bf hn is (hits + 1) with ⟨h1, h2⟩ | ⟨⟨j, hj, hf⟩, h2⟩
      · refine Or.inl ⟨?_, ?_⟩
        · intro j hj
          rcases List.mem_cons.1 hj with rfl | hj
          · exact hb
          · exact h1 j hj
        · rw [loop, e1, hb]
          simp only [Res.bind_ok, if_true]
          rw [h2]; simp; omega
      · refine Or.inr ⟨⟨j, by simp [hj], hf⟩, ?_⟩
        rw [loop, e1, hb]
        simpa using h2
    | false =>
      refine Or.inr ⟨⟨i, by simp, hb⟩, ?_⟩
      rw [loop, e1, hb]; simp

variable {κ : Type} {H : Hashes κ}

/-- all bits of the key are set -/
def Has (H : Hashes κ) (f : Filter) (k : κ) : Prop := ∀ i < f.hashes, bit f.bf (idx (H.a k) (H.b k) f.bits i) = true

theorem add_spec {f : Filter} (h : Ok f) (k : κ) : ∃ v f', add H f k = .ok (v, f') ∧ Ok f' ∧ f'.bits = f.bits ∧
    f'.hashes = f.hashes ∧ Has H f' k ∧ (∀ k', Has H f k' → Has H f' k') ∧ (Has H f k → v = 1) := by
  obtain ⟨n, bf', e, l, s, m, c, le⟩ := loop_add (a := H.a k) (b := H.b k) (bits := f.bits) (n := f.bf.length)
    (fun i => idx_ok h _ _ i) (List.range f.hashes) 0 f.bf rfl
  have hok : Ok { f with bf := bf' } := ⟨h.ready, h.bits, by simp only; rw [l]; exact h.room⟩
  have hhas : Has H { f with bf := bf' } k := fun i hi => s i (List.mem_range.2 hi)
  have hmono : ∀ k', Has H f k' → Has H { f with bf := bf' } k' := fun k' hk i hi => m _ (hk i hi)
  have hnb : ¬ (f.bits = 0 ∧ f.hashes ≠ 0) := fun hh => by have := h.bits; omega
  by_cases hn : n = f.hashes
  · refine ⟨1, _, ?_, hok, rfl, rfl, hhas, hmono, fun _ => rfl⟩
    unfold add checkAdd
    rw [if_neg (by simp [h.ready]), if_neg hnb, e]
    simp [hn]
  · refine ⟨0, _, ?_, hok, rfl, rfl, hhas, hmono, fun hk => ?_⟩
    · unfold add checkAdd
      rw [if_neg (by simp [h.ready]), if_neg hnb, e]
      simp [hn]
    · exact absurd (by simpa using c (fun i hi => hk i (List.mem_range.1 hi))) hn

theorem check_spec {f : Filter} (h : Ok f) (k : κ) :
    (Has H f k → check H f k = .ok (1, f)) ∧ (¬ Has H f k → check H f k = .ok (0, f)) := by
  have hnb : ¬ (f.bits = 0 ∧ f.hashes ≠ 0) := fun hh => by have := h.bits; omega
  unfold check checkAdd
  rw [if_neg (by simp [h.ready]), if_neg hnb]
  rcases loop_check (a := H.a k) (b := H.b k) (bits := f.bits) f.bf (fun i => idx_ok h _ _ i) (List.range f.hashes) 0 with ⟨h1, h2⟩ | ⟨⟨i, hi, hf⟩, h2⟩
  · refine ⟨fun _ => by rw [h2]; simp, fun hn => absurd (fun i hi => h1 i (List.mem_range.2 hi)) hn⟩
  · refine ⟨fun hh => ?_, fun _ => by rw [h2]; simp⟩
    have := hh i (List.mem_range.1 hi)
    rw [hf] at this; cases this

theorem reset_ok {f : Filter} (h : Ok f) : Ok (reset f).2 ∧ (reset f).2.bits = f.bits ∧ (reset f).2.hashes = f.hashes ∧
    ∀ y, bit (reset f).2.bf y = false := by
  unfold reset
  rw [if_neg (by simp [h.ready])]
  refine ⟨⟨h.ready, h.bits, by simpa using h.room⟩, rfl, rfl, ?_⟩
  intro y
  unfold bit
  simp only [List.getElem?_map]
  cases f.bf[y >>> 3]? <;> simp

theorem init_ok {bits hashes : Nat} (h : 0 < bits) : Ok (init bits hashes) := by
  refine ⟨rfl, h, ?_⟩
  unfold init
  simp only [List.length_replicate]
  split <;> omega

theorem run_ok : ∀ (ops : List (BOp κ)) {f : Filter}, Ok f → ∃ f', run H f ops = .ok f' ∧ Ok f' ∧ f'.hashes = f.hashes ∧
    (∀ k, Has H f k → (∀ op ∈ ops, ∀ _ : op = BOp.reset, False) → Has H f' k)
  | [], f, h => ⟨f, rfl, h, rfl, fun k hk _ => hk⟩
  | op :: ops, f, h => by
    have key : ∃ v f1, step H f op = .ok (v, f1) ∧ Ok f1 ∧ f1.hashes = f.hashes ∧ (op ≠ BOp.reset → ∀ k, Has H f k → Has H f1 k) := by
      cases op with
      | add k =>
        obtain ⟨v, f', e, ok, _, hh, _, m, _⟩ := add_spec (H := H) h k
        exact ⟨v, f', e, ok, hh, fun _ k' => m k'⟩
      | check k =>
        by_cases hk : Has H f k
        · exact ⟨1, f, (check_spec h k).1 hk, h, rfl, fun _ k' hk' => hk'⟩
        · exact ⟨0, f, (check_spec h k).2 hk, h, rfl, fun _ k' hk' => hk'⟩
      | reset =>
        obtain ⟨ok, _, hh, _⟩ := reset_ok h
        exact ⟨_, _, rfl, ok, hh, fun hn => absurd rfl hn⟩
    obtain ⟨v, f1, e1, ok1, hh1, m1⟩ := key
    obtain ⟨f', e, ok, hh, m⟩ := run_ok ops ok1
    refine ⟨f', by rw [run, e1]; simpa using e, ok, hh.trans hh1, ?_⟩
    intro k hk hno
    exact m k (m1 (fun e => hno op (by simp) e) k hk) (fun o ho => hno o (by simp [ho]))

theorem run_append : ∀ (xs ys : List (BOp κ)) (f : Filter), run H f (xs ++ ys) = run H f xs >>= fun f' => run H f' ys
  | [], ys, f => by simp [run]
  | x :: xs, ys, f => by
    simp only [List.cons_append, run]
    cases h : step H f x with
    | error e => simp
    | ok r => simp [run_append xs ys]

end Verif.Bloom

namespace Verif.Props
open Verif Verif.Bloom

variable {κ : Type}

/-- C39: whatever the hash functions and the size, after any calls `pre`, an `add k` and any further calls `post` that are
not resets, `check k` answers 1, and so does `add k`. -/
theorem C39_noFalseNegatives (H : Hashes κ) (bits hashes : Nat) (hb : 0 < bits) (pre post : List (BOp κ)) (k : κ)
    (hpost : ∀ op ∈ post, ∀ _ : op = BOp.reset, False) :
    ∃ f f', run H (init bits hashes) (pre ++ .add k :: post) = .ok f ∧ check H f k = .ok (1, f) ∧
      add H f k = .ok (1, f') := by
  obtain ⟨f1, e1, ok1, _⟩ := run_ok (H := H) pre (init_ok (hashes := hashes) hb)
  obtain ⟨v, f2, e2, ok2, _, _, has2, _⟩ := add_spec (H := H) ok1 k
  obtain ⟨f3, e3, ok3, _, m3⟩ := run_ok (H := H) post ok2
  have has3 := m3 k has2 hpost
  obtain ⟨v4, f4, e4, _, _, _, _, _, one⟩ := add_spec (H := H) ok3 k
  refine ⟨f3, f4, ?_, (check_spec ok3 k).1 has3, by rw [e4, one has3]⟩
  rw [run_append, e1]
  simp only [Res.bind_ok, run, step]
  rw [e2]
  exact e3

/-- C39: no sequence of calls faults; a check never changes the filter and answers 0 or 1. -/
theorem C39_checkPure (H : Hashes κ) (bits hashes : Nat) (hb : 0 < bits) (ops : List (BOp κ)) (k : κ) :
    ∃ f, run H (init bits hashes) ops = .ok f ∧ (check H f k = .ok (0, f) ∨ check H f k = .ok (1, f)) := by
  obtain ⟨f, e, ok, _⟩ := run_ok (H := H) ops (init_ok (hashes := hashes) hb)
  refine ⟨f, e, ?_⟩
  by_cases h : Has H f k
  · exact Or.inr ((check_spec ok k).1 h)
  · exact Or.inl ((check_spec ok k).2 h)

/-- C39: after a reset (as after initialisation) every check answers 0, if at least one hash function is used. -/
theorem C39_reset (H : Hashes κ) (bits hashes : Nat) (hb : 0 < bits) (hh : 0 < hashes) (ops : List (BOp κ)) (k : κ) :
    ∃ f, run H (init bits hashes) (ops ++ [.reset]) = .ok f ∧ check H f k = .ok (0, f) := by
  obtain ⟨f, e, ok, hs, _⟩ := run_ok (H := H) ops (init_ok (hashes := hashes) hb)
  obtain ⟨ok', _, hs', hz⟩ := reset_ok ok
  refine ⟨(reset f).2, ?_, ?_⟩
  · rw [run_append, e]; rfl
  · apply (check_spec ok' k).2
    intro hhas
    have := hhas 0 (by rw [hs', hs]; exact hh)
    rw [hz] at this; cases this

/-- two keys, 20 bits, 3 hash functions -/
example : ∃ f f', run (κ := Nat) ⟨fun k => 7 * k, fun k => k + 4294967290⟩ (init 20 3) ([.add 1, .check 2] ++ .add 5 :: [.add 2]) = .ok f ∧
    check ⟨fun k => 7 * k, fun k => k + 4294967290⟩ f 5 = .ok (1, f) ∧ add ⟨fun k => 7 * k, fun k => k + 4294967290⟩ f 5 = .ok (1, f') :=
  C39_noFalseNegatives _ 20 3 (by decide) _ _ _ (by intro op hop e; subst e; simp at hop)

/-- the answer 0 occurs -/
example : (run (κ := Nat) ⟨fun k => 7 * k, fun k => k + 4294967290⟩ (init 20 3) [.add 1, .add 5] >>= fun f =>
    check ⟨fun k => 7 * k, fun k => k + 4294967290⟩ f 3).map (·.1) = .ok 0 := by decide

end Verif.Props
