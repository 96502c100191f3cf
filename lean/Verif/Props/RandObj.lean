import Verif.Props.MyMath
import Verif.Props.HashTable
import Mathlib.Data.Finset.Card
import Mathlib.Data.Finset.Range
/-!
# C20: drawing a random object ends

`hashtable_rand_obj` repeats `next_rand() & mask` until the bucket is not empty.  The low bits of the generator run through all buckets, so the
loop ends after at most as many steps as there are buckets, for every seed.
-/

namespace Verif.Props
open Verif Verif.HashTable Verif.Spec Verif.MyMath

theorem lcg_mod {a c k m x : Nat} (h : k ≤ m) (n : Nat) : lcg a c (2 ^ m) x n % 2 ^ k = lcg a c (2 ^ k) (x % 2 ^ k) n % 2 ^ k := by
  have hd : 2 ^ k ∣ 2 ^ m := Nat.pow_dvd_pow 2 h
  induction n with
  | zero => simp [lcg]
  | succ n ih =>
    simp only [lcg]
    rw [Nat.mod_mod_of_dvd _ hd, Nat.mod_mod, Nat.add_mod, Nat.mul_mod, ih, ← Nat.mul_mod, ← Nat.add_mod]

/-- Within `2^k` calls the lowest `k` bits of the generator take every value, from any seed. -/
theorem C42_rand_lowBits (k : Nat) (hk : k ≤ 64) (seed v : Nat) : ∃ i, i < 2 ^ k ∧ seedAfter seed (i + 1) % 2 ^ k = v % 2 ^ k := by
  have hpos : 0 < 2 ^ k := Nat.two_pow_pos k
  let f : Nat → Nat := fun i => lcg (6364136223846793004 + 1) 1442695040888963407 (2 ^ k) (seed % 2 ^ k) (i + 1)
  have hlt : ∀ i, f i < 2 ^ k := fun i => Nat.mod_lt _ hpos
  have hf : ∀ i, seedAfter seed (i + 1) % 2 ^ k = f i := by
    intro i
    rw [seedAfter_lcg, lcg_mod hk, Nat.mod_eq_of_lt (hlt i)]
  have hd : ∀ i d, f (i + d) = f i ↔ 2 ^ k ∣ d := by
    intro i d
    show lcg _ _ _ _ (i + d + 1) = _ ↔ _
    rw [show i + d + 1 = (i + 1) + d by omega, lcg_add]
    exact lcg_back (by decide) (by decide) (hlt i)
  have hinj : ∀ i ∈ Finset.range (2 ^ k), ∀ j ∈ Finset.range (2 ^ k), f i = f j → i = j := by
    intro i hi j hj e
    rw [Finset.mem_range] at hi hj
    rcases Nat.le_total i j with h | h
    · obtain ⟨d, rfl⟩ := Nat.exists_eq_add_of_le h
      have := Nat.eq_zero_of_dvd_of_lt ((hd i d).1 e.symm) (by omega)
      omega
    · obtain ⟨d, rfl⟩ := Nat.exists_eq_add_of_le h
      have := Nat.eq_zero_of_dvd_of_lt ((hd j d).1 e) (by omega)
      omega
  obtain ⟨i, hi, e⟩ := Finset.surj_on_of_inj_on_of_card_le (s := Finset.range (2 ^ k)) (t := Finset.range (2 ^ k)) (fun i _ => f i)
    (fun i _ => Finset.mem_range.2 (hlt i)) (fun i j hi hj e => hinj i hi j hj e) (le_refl _) (v % 2 ^ k) (Finset.mem_range.2 (Nat.mod_lt _ hpos))
  exact ⟨i, Finset.mem_range.1 hi, by rw [hf, ← e]⟩

/-- C20.  Take any table that is not empty, reached by any calls, with at most 2^64 buckets, and any seed of the generator.  The loop of
`hashtable_rand_obj` ends within as many calls of `next_rand` as there are buckets, with an object of the table. -/
theorem C20_randEnds (H : ObjId → Nat) (h : Heap) (pow : Nat) (ext : Bool) (ops : List HOp) (ha : HOp.allAllowed [] ops) (t : T) (out)
    (hx : HOp.execAll H (create h pow ext) ops = .ok (out, t)) (hne : ops.foldl HOp.effect [] ≠ []) (hp : t.pow ≤ 64) (seed : Nat) :
    ∃ a, randObj t ((List.range (hashsize t.pow)).map (fun i => seedAfter seed (i + 1))) = .ok a ∧
      a ∈ (ops.foldl HOp.effect []).map Prod.snd := by
  obtain ⟨x, m, e⟩ := List.exists_cons_of_ne_nil hne
  obtain ⟨h1, h2⟩ := C26_rand H h pow ext ops ha t out hx ((List.range (hashsize t.pow)).map (fun i => seedAfter seed (i + 1)))
  obtain ⟨i, hi, hv⟩ := C42_rand_lowBits t.pow hp seed (H x.1)
  obtain ⟨a, ha'⟩ := h2 x.1 (by rw [e]; simp) ⟨_, List.mem_map.2 ⟨i, by rw [List.mem_range, hashsize_eq]; exact hi, rfl⟩, by rw [hashsize_eq]; exact hv⟩
  exact ⟨a, ha', h1 a ha'⟩

/- two buckets, one object, in bucket 1; from seed 0 the generator's first value is odd, from seed 1 the second -/
example : randObj (match HOp.execAll demoHash (create (fun _ => none) 1 false) [.insert 100 1] with | .ok p => p.2 | .error _ => create (fun _ => none) 1 false)
    ((List.range 2).map (fun i => seedAfter 0 (i + 1))) = .ok 100 := by decide +kernel

end Verif.Props
