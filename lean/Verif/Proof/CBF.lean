import Verif.Spec.CBF
import Mathlib.Data.List.Basic
/-!
# The counting sketch: loops and calls
-/

namespace Verif.CBF
open Verif Verif.Spec.CBF

/-- counter `x` -/
def ctr (bf : List Nat) (x : Nat) : Nat := (bf[x]?).getD 0

theorem get_ctr {bf : List Nat} {x : Nat} (h : x < bf.length) : bf[x]? = some (ctr bf x) := by
  unfold ctr; rw [List.getElem?_eq_getElem h]; rfl

theorem minLoop_spec {a b num : Nat} {bf : List Nat} (h : ∀ i, idx a b num i < bf.length) :
    ∀ (is : List Nat) (m : Nat), ∃ v, minLoop a b num bf is m = .ok v ∧ v ≤ m ∧ (∀ i ∈ is, v ≤ ctr bf (idx a b num i)) ∧
      (v = m ∨ ∃ i ∈ is, v = ctr bf (idx a b num i))
  | [], m => ⟨m, rfl, Nat.le_refl _, by simp, Or.inl rfl⟩
  | i :: is, m => by
    rw [minLoop, get_ctr (h i)]
    simp only
    split
    · obtain ⟨v, e, le, all, wit⟩ := minLoop_spec h is (ctr bf (idx a b num i))
      refine ⟨v, e, by omega, ?_, Or.inr ?_⟩
      · intro j hj
        rcases List.mem_cons.1 hj with rfl | hj
        · exact le
        · exact all j hj
      · rcases wit with rfl | ⟨j, hj, e⟩
        · exact ⟨i, by simp, rfl⟩
        · exact ⟨j, by simp [hj], e⟩
    · obtain ⟨v, e, le, all, wit⟩ := minLoop_spec h is m
      refine ⟨v, e, le, ?_, ?_⟩
      · intro j hj
        rcases List.mem_cons.1 hj with rfl | hj
        · omega
        · exact all j hj
      · rcases wit with rfl | ⟨j, hj, e⟩
        · exact Or.inl rfl
        · exact Or.inr ⟨j, by simp [hj], e⟩

theorem ctr_set {bf : List Nat} {x : Nat} (h : x < bf.length) (c y : Nat) :
    ctr (bf.set x c) y = if x = y then c else ctr bf y := by
  unfold ctr
  rw [List.getElem?_set]
  by_cases e : x = y
  · subst e; simp [h]
  · simp [e]

theorem incLoop_spec {a b num n : Nat} (h : ∀ i, idx a b num i < n) :
    ∀ (is : List Nat) (bf : List Nat) (B : Nat), bf.length = n → (∀ x, ctr bf x ≤ B) → B + is.length < 2 ^ 32 →
    ∃ bf', incLoop a b num is bf = .ok bf' ∧ bf'.length = n ∧ (∀ x, ctr bf' x ≤ B + is.length) ∧ (∀ x, ctr bf x ≤ ctr bf' x) ∧
      (∀ i ∈ is, ctr bf (idx a b num i) + 1 ≤ ctr bf' (idx a b num i))
  | [], bf, B, hl, hB, _ => ⟨bf, rfl, hl, hB, fun _ => Nat.le_refl _, by simp⟩
  | i :: is, bf, B, hl, hB, hw => by
    have hlen : (i :: is).length = is.length + 1 := rfl
    have hi : idx a b num i < bf.length := by rw [hl]; exact h i
    have hBi := hB (idx a b num i)
    have hmod : (ctr bf (idx a b num i) + 1) % 2 ^ 32 = ctr bf (idx a b num i) + 1 := Nat.mod_eq_of_lt (by omega)
    rw [incLoop, get_ctr hi]
    simp only [hmod]
    have hm1 : ∀ x, ctr bf x ≤ ctr (bf.set (idx a b num i) (ctr bf (idx a b num i) + 1)) x := by
      intro x; rw [ctr_set hi]; split
      · rename_i e; rw [e]; omega
      · exact Nat.le_refl _
    obtain ⟨bf', e, l, up, mono, inc⟩ := incLoop_spec h is (bf.set (idx a b num i) (ctr bf (idx a b num i) + 1)) (B + 1)
      (by simpa using hl) (by intro x; rw [ctr_set hi]; have := hB x; split <;> omega) (by omega)
    refine ⟨bf', e, l, fun x => by have := up x; omega, fun x => Nat.le_trans (hm1 x) (mono x), ?_⟩
    intro j hj
    rcases List.mem_cons.1 hj with rfl | hj
    · have := mono (idx a b num j)
      rw [ctr_set hi, if_pos rfl] at this
      exact this
    · have := inc j hj
      have := hm1 (idx a b num j)
      omega

/-- the shape of an initialised sketch whose counters are at most `B` -/
structure Ok (f : Sketch) (B : Nat) : Prop where
  ready : f.ready = true
  num : 0 < f.counterNum
  len : f.bf.length = f.counterNum
  bound : ∀ x, ctr f.bf x ≤ B

theorem idx_lt {f : Sketch} {B : Nat} (h : Ok f B) (a b i : Nat) : idx a b f.counterNum i < f.counterNum := Nat.mod_lt _ h.num

variable {κ : Type} [DecidableEq κ] {H : Hashes κ}

/-- every counter of the key is at least `n` -/
def AtLeast (H : Hashes κ) (f : Sketch) (k : κ) (n : Nat) : Prop :=
  ∀ i < f.hashes, n ≤ ctr f.bf (idx (H.a k) (H.b k) f.counterNum i)

omit [DecidableEq κ] in
theorem estimate_spec {f : Sketch} {B : Nat} (h : Ok f B) (hB : B < 2 ^ 31) (hh : 0 < f.hashes) (k : κ) :
    ∃ v : Nat, estimate H f k = .ok ((v : Int), f) ∧ v ≤ B ∧ (∀ n, AtLeast H f k n → n ≤ v) ∧ AtLeast H f k v := by
  obtain ⟨v, e, le, all, wit⟩ := minLoop_spec (a := H.a k) (b := H.b k) (num := f.counterNum) (bf := f.bf)
    (fun i => by rw [h.len]; exact idx_lt h _ _ _) (List.range f.hashes) (2 ^ 32 - 1)
  have hvB : v ≤ B := Nat.le_trans (all 0 (List.mem_range.2 hh)) (h.bound _)
  have hti : toInt v = v := by unfold toInt; rw [if_pos (by omega)]
  refine ⟨v, ?_, hvB, ?_, fun i hi => all i (List.mem_range.2 hi)⟩
  · unfold estimate checkAdd
    rw [if_neg (by simp [h.ready]), if_neg (by have := h.num; omega), e]
    simp [hti]
  · intro n hn
    rcases wit with rfl | ⟨i, hi, rfl⟩
    · have := all 0 (List.mem_range.2 hh)
      have := hn 0 hh
      have := h.bound (idx (H.a k) (H.b k) f.counterNum 0)
      omega
    · exact hn i (List.mem_range.1 hi)

omit [DecidableEq κ] in
theorem add_spec {f : Sketch} {B : Nat} (h : Ok f B) (hB : B + f.hashes < 2 ^ 31) (hh : 0 < f.hashes) (k : κ) :
    ∃ v f', add H f k = .ok (v, f') ∧ Ok f' (B + f.hashes) ∧ f'.hashes = f.hashes ∧
      (∀ k' n, AtLeast H f k' n → AtLeast H f' k' n) ∧ (∀ n, AtLeast H f k n → AtLeast H f' k (n + 1)) := by
  obtain ⟨v, e, le, all, wit⟩ := minLoop_spec (a := H.a k) (b := H.b k) (num := f.counterNum) (bf := f.bf)
    (fun i => by rw [h.len]; exact idx_lt h _ _ _) (List.range f.hashes) (2 ^ 32 - 1)
  have hvB : v ≤ B := Nat.le_trans (all 0 (List.mem_range.2 hh)) (h.bound _)
  obtain ⟨bf', e2, l2, up, mono, inc⟩ := incLoop_spec (a := H.a k) (b := H.b k) (num := f.counterNum) (n := f.counterNum)
    (fun i => idx_lt h _ _ _) (List.range f.hashes) f.bf B h.len h.bound (by simp; omega)
  refine ⟨toInt (v + 1), { f with bf := bf' }, ?_, ⟨h.ready, h.num, l2, by simpa using up⟩, rfl, ?_, ?_⟩
  · unfold add checkAdd
    rw [if_neg (by simp [h.ready]), if_neg (by have := h.num; omega), e]
    simp only [Res.bind_ok]
    rw [if_pos ⟨trivial, by omega⟩, e2]
    rfl
  · exact fun k' n hn i hi => Nat.le_trans (hn i hi) (mono _)
  · intro n hn i hi
    have := hn i hi
    have := inc i (List.mem_range.2 hi)
    simp only
    omega

theorem ctr_decay (bf : List Nat) (x : Nat) : ctr (bf.map (fun c => c >>> 1)) x = ctr bf x / 2 := by
  unfold ctr
  rw [List.getElem?_map]
  cases bf[x]? <;> simp [Nat.shiftRight_eq_div_pow]

omit [DecidableEq κ] in
theorem decay_spec {f : Sketch} {B : Nat} (h : Ok f B) : Ok (decay f).2 B ∧ (decay f).2.hashes = f.hashes ∧
    ∀ (k : κ) n, AtLeast H f k n → AtLeast H (decay f).2 k (n / 2) := by
  unfold decay
  rw [if_neg (by simp [h.ready])]
  refine ⟨⟨h.ready, h.num, by simpa using h.len, ?_⟩, rfl, ?_⟩
  · intro x
    simp only
    rw [ctr_decay]; have := h.bound x; omega
  · intro k n hn i hi
    simp only
    rw [ctr_decay]
    have := hn i hi
    omega

theorem run_spec {hs : Nat} (hh : 0 < hs) : ∀ (ops : List (SOp κ)) {f : Sketch} {B : Nat}, Ok f B → f.hashes = hs →
    B + hs * adds ops < 2 ^ 31 →
    ∃ f', run H f ops = .ok f' ∧ Ok f' (B + hs * adds ops) ∧ f'.hashes = hs ∧
      ∀ k n, AtLeast H f k n → AtLeast H f' k (count k n ops)
  | [], f, B, h, hf, hb => ⟨f, rfl, h, hf, fun k n hn => hn⟩
  | .add k :: ops, f, B, h, hf, hb => by
    have hexp : hs * adds (.add k :: ops) = hs * adds ops + hs := by rw [adds, Nat.mul_add, Nat.mul_one]
    rw [hexp] at hb
    obtain ⟨v, f1, e1, ok1, hf1, m1, i1⟩ := add_spec (H := H) h (by omega) (by omega) k
    rw [hf] at ok1
    obtain ⟨f', e, ok, hf', m⟩ := run_spec hh ops ok1 (hf1.trans hf) (by omega)
    refine ⟨f', by rw [run, step, e1]; simpa using e, ?_, hf', ?_⟩
    · rw [hexp, show B + (hs * adds ops + hs) = B + hs + hs * adds ops by omega]; exact ok
    · intro k' n hn
      rw [count]
      by_cases e : k = k'
      · subst e; rw [if_pos rfl]; exact m _ _ (i1 n hn)
      · rw [if_neg e]; exact m _ _ (m1 _ n hn)
  | .estimate k :: ops, f, B, h, hf, hb => by
    rw [adds] at hb ⊢
    obtain ⟨v, e1, _⟩ := estimate_spec (H := H) h (by omega) (by omega) k
    obtain ⟨f', e, ok, hf', m⟩ := run_spec hh ops h hf hb
    refine ⟨f', by rw [run, step, e1]; simpa using e, ok, hf', fun k' n hn => by rw [count]; exact m _ _ hn⟩
    all_goals simp
  | .decay :: ops, f, B, h, hf, hb => by
    rw [adds] at hb ⊢
    obtain ⟨ok1, hf1, m1⟩ := decay_spec (H := H) h
    obtain ⟨f', e, ok, hf', m⟩ := run_spec hh ops ok1 (hf1.trans hf) hb
    refine ⟨f', by rw [run, step]; simpa using e, ok, hf', fun k' n hn => by rw [count]; exact m _ _ (m1 _ _ hn)⟩
    all_goals simp

theorem init_ok {num hs : Nat} (h : 0 < num) : Ok (init num hs) 0 := by
  refine ⟨rfl, h, by simp [init], fun x => ?_⟩
  unfold ctr init
  simp only [List.getElem?_replicate]
  split <;> simp

end Verif.CBF

namespace Verif.CBF
open Verif

/-- the shape of an initialised sketch -/
structure Shape (f : Sketch) : Prop where
  ready : f.ready = true
  num : 0 < f.counterNum
  len : f.bf.length = f.counterNum

theorem shape_init {num hs : Nat} (h : 0 < num) : Shape (init num hs) := ⟨rfl, h, by simp [init]⟩

theorem Shape.idx {f : Sketch} (h : Shape f) (a b i : Nat) : CBF.idx a b f.counterNum i < f.bf.length := by
  rw [h.len]; exact Nat.mod_lt _ h.num

theorem incLoop_ok {a b num : Nat} : ∀ (is bf : List Nat), (∀ i, idx a b num i < bf.length) →
    ∃ bf', incLoop a b num is bf = .ok bf' ∧ bf'.length = bf.length
  | [], bf, _ => ⟨bf, rfl, rfl⟩
  | i :: is, bf, h => by
    rw [incLoop, get_ctr (h i)]
    simp only
    obtain ⟨bf', h1, h2⟩ := incLoop_ok is (bf.set (idx a b num i) ((ctr bf (idx a b num i) + 1) % 2 ^ 32)) (by simpa using h)
    exact ⟨bf', h1, by simpa using h2⟩

variable {κ : Type} {H : Hashes κ}

theorem Shape.estimate {f : Sketch} (h : Shape f) (k : κ) : ∃ v, CBF.estimate H f k = .ok (v, f) := by
  obtain ⟨v, e, _⟩ := minLoop_spec (a := H.a k) (b := H.b k) (num := f.counterNum) (bf := f.bf) (fun i => h.idx _ _ _) (List.range f.hashes) (2 ^ 32 - 1)
  refine ⟨toInt v, ?_⟩
  rw [CBF.estimate, checkAdd, if_neg (by simp [h.ready]), if_neg (by have := h.num; omega), e, Res.bind_ok, if_neg (by simp)]

theorem Shape.add {f : Sketch} (h : Shape f) (k : κ) : ∃ v f', CBF.add H f k = .ok (v, f') ∧ Shape f' := by
  obtain ⟨v, e, _⟩ := minLoop_spec (a := H.a k) (b := H.b k) (num := f.counterNum) (bf := f.bf) (fun i => h.idx _ _ _) (List.range f.hashes) (2 ^ 32 - 1)
  obtain ⟨bf', e2, l2⟩ := incLoop_ok (a := H.a k) (b := H.b k) (num := f.counterNum) (List.range f.hashes) f.bf (fun i => h.idx _ _ _)
  rw [CBF.add, checkAdd, if_neg (by simp [h.ready]), if_neg (by have := h.num; omega), e, Res.bind_ok]
  by_cases hc : true = true ∧ v < 2 ^ 32 - 1
  · rw [if_pos hc, e2]
    exact ⟨_, _, rfl, h.ready, h.num, l2.trans h.len⟩
  · rw [if_neg hc]
    exact ⟨_, _, rfl, h⟩

theorem Shape.decay {f : Sketch} (h : Shape f) : Shape (CBF.decay f).2 := by
  rw [CBF.decay, if_neg (by simp [h.ready])]
  exact ⟨h.ready, h.num, by simpa using h.len⟩

end Verif.CBF
