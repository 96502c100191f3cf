import Verif.Proof.PG
import Verif.Props.OBL
/-!
# Properties of the PG prefetcher (libCacheSim/cache/prefetch/PG.c)
-/

namespace Verif.Props
open Verif Verif.Spec Verif.Spec.Prefetch Verif.Prefetch
set_option linter.unusedVariables false
set_option maxRecDepth 20000

/-- What C77 asks of a cache `A` of `cs` bytes with `md` bytes of metadata per object, started in state `s0`, with a PG prefetcher that looks `n` requests ahead, may use `maxMeta` bytes, and
takes `c` of `t` requests as more than the threshold if `over c t`: every trace with ids from 1 to 2^31 - 1, of objects that fit into the cache, is served without a fault;
afterwards the cache is consistent; and a further request `r` is answered, and treated, as without the prefetcher, except that some distinct objects are prefetched.  Each of
them was requested within `n` requests after an earlier request for `r.id`, and is fetched with the size last seen; and as long as the metadata limit cannot have been reached, its share
of the requests that followed `r.id` within `n` requests is more than the threshold. -/
def PGWorks {σ : Type} (A : Algo σ) (cached : σ → Contents) (s0 : σ) (cs md n maxMeta : Nat) (over : Nat → Nat → Bool) (junk : List Bool) : Prop :=
  ∀ rs : List Req, (∀ r ∈ rs, PG.Proper cs md r) → ∃ out s, gets A (PG.hooks σ) (s0, PG.create n maxMeta over junk) rs = .ok (out, s) ∧
    Consistent A cached cs md s.1 ∧
    ∀ r : Req, PG.Proper cs md r →
      ∃ b c s' xs, A.get s.1 r = .ok (b, c) ∧ get A (PG.hooks σ) s r = .ok (b, s') ∧ (b = true ↔ r.id ∈ (cached s.1).ids) ∧
        FetchedAll cs md (cached c) xs (cached s'.1) ∧ (xs.map Prod.fst).Nodup ∧
        ∀ x ∈ xs, 1 ≤ followed n ((rs ++ [r]).map Req.id) r.id x.1 ∧ lastSize (rs ++ [r]) x.1 = some x.2 ∧
          (32 * (1 + n) * (rs.length + 1) < maxMeta → over (followed n ((rs ++ [r]).map Req.id) r.id x.1) (following n ((rs ++ [r]).map Req.id) r.id) = true)

theorem pgWorks {σ μ : Type} {A : Algo σ} {base : σ → Base μ} {setBase : σ → Base μ → σ} {Inv : σ → Prop} {cs md n maxMeta : Nat} {over : Nat → Nat → Bool} {junk : List Bool}
    (S : SBSpec A base setBase Inv cs md) {s0 : σ} (h0 : Inv s0) (hn : 1 ≤ n) (hmd : md < 2 ^ 31) : PGWorks A (fun s => (base s).cached) s0 cs md n maxMeta over junk := by
  intro rs hrs
  have hok : ∀ r : Req, r.size < 2147483648 → SizeOk md r := fun r hr => by
    have e : r.size % u32 = r.size := Nat.mod_eq_of_lt (by have : u32 = 4294967296 := rfl; omega)
    have : u32 = 4294967296 := rfl
    simp only [SizeOk]
    omega
  obtain ⟨out, s, h1, h2, h3⟩ := PG.gets_spec S rfl hok hn rs (s := (s0, PG.create n maxMeta over junk)) h0 (by simp) hrs (PG.rel_create hn maxMeta over junk)
  rw [List.nil_append] at h3
  refine ⟨out, s, h1, consistent S h2, fun r hr => ?_⟩
  obtain ⟨c, s', xs, g1, g2, _, _, g3, g4, g5⟩ := PG.get_spec S rfl hok hn h2 hrs h3 r hr
  exact ⟨_, c, s', xs, g1, g2, by simp, g3, g4, g5⟩

theorem C77_pg_LRU_partial (cs md n maxMeta : Nat) (over : Nat → Nat → Bool) (junk : List Bool) (adm : Adm) (hn : 1 ≤ n) (hmd : md < 2 ^ 31) :
    PGWorks LRU.algo LRU_cached (LRU.init cs md adm) cs md n maxMeta over junk :=
  pgWorks (LRU.spec cs md) (QInv.init cs md adm) hn hmd

theorem C77_pg_FIFO_partial (cs md n maxMeta : Nat) (over : Nat → Nat → Bool) (junk : List Bool) (adm : Adm) (hn : 1 ≤ n) (hmd : md < 2 ^ 31) :
    PGWorks FIFO.algo FIFO_cached (FIFO.init cs md adm) cs md n maxMeta over junk :=
  pgWorks (FIFO.spec cs md) (QInv.init cs md adm) hn hmd

theorem C77_pg_Clock_partial (cs md n maxMeta : Nat) (over : Nat → Nat → Bool) (junk : List Bool) (adm : Adm) (maxFreq : Nat) (hn : 1 ≤ n) (hmd : md < 2 ^ 31) :
    PGWorks Clock.algo Clock_cached (Clock.init cs md maxFreq adm) cs md n maxMeta over junk :=
  pgWorks (Clock.spec cs md maxFreq) (Clock.inv_init cs md maxFreq adm) hn hmd

theorem C77_pg_Sieve_partial (cs md n maxMeta : Nat) (over : Nat → Nat → Bool) (junk : List Bool) (adm : Adm) (hn : 1 ≤ n) (hmd : md < 2 ^ 31) :
    PGWorks Sieve.algo Sieve_cached (Sieve.init cs md adm) cs md n maxMeta over junk :=
  pgWorks (Sieve.spec cs md) (Sieve.inv_init cs md adm) hn hmd

theorem C77_pg_LFU_partial (cs md n maxMeta : Nat) (over : Nat → Nat → Bool) (junk : List Bool) (adm : Adm) (hn : 1 ≤ n) (hmd : md < 2 ^ 31) :
    PGWorks LFU.algo LFU_cached (LFU.init cs md adm) cs md n maxMeta over junk :=
  pgWorks (LFU.spec cs md) (LFU.inv_init cs md adm) hn hmd

theorem C77_pg_Size_partial (cs md n maxMeta : Nat) (over : Nat → Nat → Bool) (junk : List Bool) (adm : Adm) (hn : 1 ≤ n) (hmd : md < 2 ^ 31) :
    PGWorks Size.algo Size_cached (Size.init cs md adm) cs md n maxMeta over junk :=
  pgWorks (Size.spec cs md) (PQCache.inv_init cs md adm) hn hmd

theorem C77_pg_Random_partial (cs md n maxMeta : Nat) (over : Nat → Nat → Bool) (junk : List Bool) (adm : Adm) (picks : List Nat) (hn : 1 ≤ n) (hmd : md < 2 ^ 31) :
    PGWorks Random.algo Random_cached (Random.init cs md adm picks) cs md n maxMeta over junk :=
  pgWorks (Random.spec cs md) (Rand.inv_init cs md adm picks) hn hmd

theorem C77_pg_RandomTwo_partial (cs md n maxMeta : Nat) (over : Nat → Nat → Bool) (junk : List Bool) (adm : Adm) (picks : List Nat) (hn : 1 ≤ n) (hmd : md < 2 ^ 31) :
    PGWorks RandomTwo.algo RandomTwo_cached (RandomTwo.init cs md adm picks) cs md n maxMeta over junk :=
  pgWorks (RandomTwo.spec cs md) (Rand.inv_init cs md adm picks) hn hmd

theorem C77_pg_RandomLRU_partial (cs md n maxMeta : Nat) (over : Nat → Nat → Bool) (junk : List Bool) (adm : Adm) (picks : List Nat) (hn : 1 ≤ n) (hmd : md < 2 ^ 31) :
    PGWorks RandomLRU.algo RandomLRU_cached (RandomLRU.init cs md adm picks) cs md n maxMeta over junk :=
  pgWorks (RandomLRU.spec cs md) (Rand.inv_init cs md adm picks) hn hmd

/-- the result of serving a trace through LRU with PG (threshold `num/den`): answers, cached objects, fault -/
def lruPG (cs md n maxMeta num den : Nat) (junk : List Bool) (rs : List Req) : Option (List Bool × Contents) × Option Fault :=
  match gets LRU.algo (PG.hooks _) (LRU.init cs md .none, PG.create n maxMeta (fun c t => num * t < c * den) junk) rs with
  | .ok x => (some (x.1, LRU_cached x.2.1), none)
  | .error f => (none, some f)

/-- requests for objects of 10 bytes -/
def tens (l : List Nat) : List Req := l.map (fun i => ⟨i, 10, -2⟩)

/-- Object 2 followed 1: when 1 is requested again, 2 is prefetched. -/
example : lruPG 20 0 1 100000 1 2 [] (tens [1, 2, 3, 1]) = (some ([false, false, false, false], [(2, 10), (1, 10)]), none) := by decide +kernel

example : followed 1 [1, 2, 3, 1] 1 2 = 1 ∧ following 1 [1, 2, 3, 1] 1 = 1 ∧ PG.Proper 20 0 ⟨1, 10, -2⟩ := by
  refine ⟨by decide, by decide, ?_, ?_, ?_, ?_⟩ <;> decide

/-- The converse of C77 fails: object 2 followed 1 in three of four cases, which is more than one half, but it is not prefetched.  After a request for 1 when its share was one half it was taken out of
the priority queue and not put back. -/
theorem C77_complete_fails : lruPG 40 0 1 9600 1 2 [] (tens [1, 2, 1, 3, 4, 1, 2, 3, 1, 2, 5, 6, 7, 8, 1]) =
      (some ([false, false, true, false, false, true, true, true, true, true, false, false, false, false, false], [(1, 10), (8, 10), (7, 10), (6, 10)]), none) ∧
    followed 1 [1, 2, 1, 3, 4, 1, 2, 3, 1, 2, 5, 6, 7, 8, 1] 1 2 = 3 ∧ following 1 [1, 2, 1, 3, 4, 1, 2, 3, 1, 2, 5, 6, 7, 8, 1] 1 = 4 := by
  refine ⟨?_, ?_, ?_⟩ <;> decide +kernel

/-- C77 fails when the limit of 96 bytes of metadata is reached: requests for unknown arcs are no longer counted, and 2 is prefetched although its share is one quarter and the threshold
three tenths. -/
theorem C77_limit_fails : lruPG 40 0 2 96 3 10 [] (tens [1, 2, 3, 1, 4, 5, 6, 1]) =
      (some ([false, false, false, true, false, false, false, true], [(2, 10), (3, 10), (6, 10), (1, 10)]), none) ∧
    followed 2 [1, 2, 3, 1, 4, 5, 6, 1] 1 2 = 1 ∧ following 2 [1, 2, 3, 1, 4, 5, 6, 1] 1 = 4 := by
  refine ⟨?_, ?_, ?_⟩ <;> decide +kernel

/-- C05 fails: the objects prefetched for a request evict the object that was requested. -/
theorem C05_admitted_fails_PG : lruPG 20 0 2 100000 1 4 [] (tens [1, 2, 3, 4, 1]) = (some ([false, false, false, false, false], [(3, 10), (2, 10)]), none) := by decide +kernel

/-- C04 fails for ids from 2^31 on: the id goes through a signed 32-bit number, and an object nobody requested is cached. -/
theorem C04_noPhantom_fails_PG : lruPG 20 0 1 100000 1 2 [] (tens [7, 2147483649, 8, 9, 7]) =
    (some ([false, false, false, false, false], [(18446744071562067969, 10), (7, 10)]), none) := by decide +kernel

/-- C09 fails if an object that does not fit into the cache is prefetched: PG evicts from the empty cache (NULL pointer). -/
theorem C09_safe_fails_PG : lruPG 15 0 1 100000 1 2 [] [⟨1, 10, -2⟩, ⟨2, 20, -2⟩, ⟨3, 10, -2⟩, ⟨1, 10, -2⟩] = (none, some .nullDeref) := by decide +kernel

end Verif.Props
