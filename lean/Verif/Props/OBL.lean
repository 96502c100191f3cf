import Verif.Proof.Prefetch
import Verif.Props.LRU
import Verif.Props.FIFO
import Verif.Props.Clock
import Verif.Props.Sieve
import Verif.Props.LFU
import Verif.Props.Size
import Verif.Props.Random
import Verif.Props.RandomTwo
import Verif.Props.RandomLRU
/-!
# Properties of the OBL prefetcher (libCacheSim/cache/prefetch/OBL.c)

A cache without object metadata, with any admission policy, serves any trace through `get` with the prefetcher attached.  Object ids are below 2^64 - 1.
-/

namespace Verif.Props
open Verif Verif.Spec Verif.Spec.Prefetch Verif.Prefetch
set_option linter.unusedVariables false
set_option maxRecDepth 20000

/-- ids other than the largest 64-bit number -/
def ProperId (id : Nat) : Prop := id < 2 ^ 64 - 1

/-- What C76 asks of a cache `A` of `cs` bytes, started in state `s0`, with an OBL prefetcher for blocks of `block` bytes and confidence `k`: every trace is served without a fault;
afterwards the cache is consistent; and a further request `r` (unless fewer than `k` requests were served and its id is below `k`) is answered, and treated, as without the
prefetcher, except that block `r.id + 1` is prefetched if and only if `r` and the `k` requests before it were for consecutive ids. -/
def OBLWorks {σ : Type} (A : Algo σ) (cached : σ → Contents) (s0 : σ) (cs k block : Nat) : Prop :=
  ∀ rs : List Req, (∀ r ∈ rs, ProperId r.id) → ∃ out s, gets A (OBL.hooks σ) (s0, OBL.create block k) rs = .ok (out, s) ∧
    Consistent A cached cs 0 s.1 ∧
    ∀ r : Req, ProperId r.id → (k ≤ rs.length ∨ k ≤ r.id) →
      ∃ b c s', A.get s.1 r = .ok (b, c) ∧ get A (OBL.hooks σ) s r = .ok (b, s') ∧ (b = true ↔ r.id ∈ (cached s.1).ids) ∧
        (Sequential k (rs.map Req.id) r.id → Fetched cs 0 block (cached c) (r.id + 1, block) (cached s'.1)) ∧
        (¬ Sequential k (rs.map Req.id) r.id → s'.1 = c)

theorem oblWorks {σ μ : Type} {A : Algo σ} {base : σ → Base μ} {setBase : σ → Base μ → σ} {Inv : σ → Prop} {cs k block : Nat}
    (S : SBSpec A base setBase Inv cs 0) {s0 : σ} (h0 : Inv s0) (hk : 1 ≤ k) (hk2 : k < 2 ^ 31) (hb : block ≤ cs) (hb2 : block < 2 ^ 31) :
    OBLWorks A (fun s => (base s).cached) s0 cs k block := by
  intro rs hrs
  have hok : ∀ r : Req, SizeOk 0 r := fun r => by
    have := Nat.mod_lt r.size (show 0 < u32 by decide)
    simpa [SizeOk] using this
  obtain ⟨out, s, h1, h2, h3⟩ := OBL.gets_spec S rfl hok hb rs (s := (s0, OBL.create block k)) h0 (OBL.rel_create hk block)
  rw [List.nil_append] at h3
  refine ⟨out, s, h1, consistent S h2, fun r hr hen => ?_⟩
  obtain ⟨c, s', g1, g2, _, _, g3, g4⟩ := OBL.get_spec S rfl hok hb h2 h3 r
  have hu : OBL.u64 = 2 ^ 64 := rfl
  have hiff : OBL.Match k (rs.map Req.id) r.id ↔ Sequential k (rs.map Req.id) r.id := by
    refine OBL.match_iff (by omega) (by rw [hu]; exact hr) (fun x hx => ?_) (by rw [List.length_map]; exact hen)
    obtain ⟨y, hy, rfl⟩ := List.mem_map.1 hx
    rw [hu]; exact hrs y hy
  refine ⟨_, c, s', g1, g2, by simp, fun hs => ?_, fun hs => g4 (fun hm => hs (hiff.1 hm))⟩
  have e1 : (r.id + 1) % OBL.u64 = r.id + 1 := Nat.mod_eq_of_lt (Nat.add_lt_of_lt_sub hr)
  have e2 : block % u32 = block := Nat.mod_eq_of_lt (by have : u32 = 4294967296 := rfl; omega)
  have := g3 (hiff.2 hs)
  rw [e1, e2] at this; exact this

theorem C76_obl_LRU_partial (cs block k : Nat) (adm : Adm) (hk : 1 ≤ k) (hk2 : k < 2 ^ 31) (hb : block ≤ cs) (hb2 : block < 2 ^ 31) :
    OBLWorks LRU.algo LRU_cached (LRU.init cs 0 adm) cs k block :=
  oblWorks (LRU.spec cs 0) (QInv.init cs 0 adm) hk hk2 hb hb2

theorem C76_obl_FIFO_partial (cs block k : Nat) (adm : Adm) (hk : 1 ≤ k) (hk2 : k < 2 ^ 31) (hb : block ≤ cs) (hb2 : block < 2 ^ 31) :
    OBLWorks FIFO.algo FIFO_cached (FIFO.init cs 0 adm) cs k block :=
  oblWorks (FIFO.spec cs 0) (QInv.init cs 0 adm) hk hk2 hb hb2

theorem C76_obl_Clock_partial (cs block k maxFreq : Nat) (adm : Adm) (hk : 1 ≤ k) (hk2 : k < 2 ^ 31) (hb : block ≤ cs) (hb2 : block < 2 ^ 31) :
    OBLWorks Clock.algo Clock_cached (Clock.init cs 0 maxFreq adm) cs k block :=
  oblWorks (Clock.spec cs 0 maxFreq) (Clock.inv_init cs 0 maxFreq adm) hk hk2 hb hb2

theorem C76_obl_Sieve_partial (cs block k : Nat) (adm : Adm) (hk : 1 ≤ k) (hk2 : k < 2 ^ 31) (hb : block ≤ cs) (hb2 : block < 2 ^ 31) :
    OBLWorks Sieve.algo Sieve_cached (Sieve.init cs 0 adm) cs k block :=
  oblWorks (Sieve.spec cs 0) (Sieve.inv_init cs 0 adm) hk hk2 hb hb2

theorem C76_obl_LFU_partial (cs block k : Nat) (adm : Adm) (hk : 1 ≤ k) (hk2 : k < 2 ^ 31) (hb : block ≤ cs) (hb2 : block < 2 ^ 31) :
    OBLWorks LFU.algo LFU_cached (LFU.init cs 0 adm) cs k block :=
  oblWorks (LFU.spec cs 0) (LFU.inv_init cs 0 adm) hk hk2 hb hb2

theorem C76_obl_Size_partial (cs block k : Nat) (adm : Adm) (hk : 1 ≤ k) (hk2 : k < 2 ^ 31) (hb : block ≤ cs) (hb2 : block < 2 ^ 31) :
    OBLWorks Size.algo Size_cached (Size.init cs 0 adm) cs k block :=
  oblWorks (Size.spec cs 0) (PQCache.inv_init cs 0 adm) hk hk2 hb hb2

theorem C76_obl_Random_partial (cs block k : Nat) (adm : Adm) (picks : List Nat) (hk : 1 ≤ k) (hk2 : k < 2 ^ 31) (hb : block ≤ cs) (hb2 : block < 2 ^ 31) :
    OBLWorks Random.algo Random_cached (Random.init cs 0 adm picks) cs k block :=
  oblWorks (Random.spec cs 0) (Rand.inv_init cs 0 adm picks) hk hk2 hb hb2

theorem C76_obl_RandomTwo_partial (cs block k : Nat) (adm : Adm) (picks : List Nat) (hk : 1 ≤ k) (hk2 : k < 2 ^ 31) (hb : block ≤ cs) (hb2 : block < 2 ^ 31) :
    OBLWorks RandomTwo.algo RandomTwo_cached (RandomTwo.init cs 0 adm picks) cs k block :=
  oblWorks (RandomTwo.spec cs 0) (Rand.inv_init cs 0 adm picks) hk hk2 hb hb2

theorem C76_obl_RandomLRU_partial (cs block k : Nat) (adm : Adm) (picks : List Nat) (hk : 1 ≤ k) (hk2 : k < 2 ^ 31) (hb : block ≤ cs) (hb2 : block < 2 ^ 31) :
    OBLWorks RandomLRU.algo RandomLRU_cached (RandomLRU.init cs 0 adm picks) cs k block :=
  oblWorks (RandomLRU.spec cs 0) (Rand.inv_init cs 0 adm picks) hk hk2 hb hb2

/-- the result of serving a trace through LRU with OBL: answers, cached objects, fault -/
def lruObl (cs md k block : Nat) (rs : List Req) : Option (List Bool × Contents) × Option Fault :=
  match gets LRU.algo (OBL.hooks _) (LRU.init cs md .none, OBL.create block k) rs with
  | .ok x => (some (x.1, LRU_cached x.2.1), none)
  | .error f => (none, some f)

/-- Blocks 5, 6, 7 are requested: with confidence 2 block 8 is prefetched, and the request for it hits; block 9 follows. -/
example : lruObl 40 0 2 10 [⟨5, 10, -2⟩, ⟨6, 10, -2⟩, ⟨7, 10, -2⟩, ⟨8, 10, -2⟩] = (some ([false, false, false, true], [(9, 10), (8, 10), (7, 10), (6, 10)]), none) := by decide +kernel

example : Sequential 2 [5, 6] 7 := ⟨by omega, [], by decide⟩

/-- C76 fails for the first requests: the array of past ids starts out with the largest id, of which 0 is the successor, so a first request for block 0 is taken for the continuation of a
sequence. -/
theorem C76_first_fails_OBL : lruObl 40 0 1 10 [⟨0, 10, -2⟩] = (some ([false], [(1, 10), (0, 10)]), none) := by decide +kernel

/-- C01 fails with object metadata: OBL makes room for the block without its metadata, and 56 of 52 bytes are in use. -/
theorem C01_capacity_fails_OBL : lruObl 52 4 1 10 [⟨5, 10, -2⟩, ⟨8, 10, -2⟩, ⟨9, 10, -2⟩] = (some ([false, false, false], [(10, 10), (9, 10), (8, 10), (5, 10)]), none) ∧
    bytes 4 [(10, 10), (9, 10), (8, 10), (5, 10)] = 56 := by
  constructor <;> decide +kernel

/-- C09 fails if a block is larger than the cache: OBL evicts from the empty cache (NULL pointer). -/
theorem C09_safe_fails_OBL : lruObl 9 0 1 10 [⟨5, 3, -2⟩, ⟨6, 3, -2⟩] = (none, some .nullDeref) := by decide +kernel

end Verif.Props
