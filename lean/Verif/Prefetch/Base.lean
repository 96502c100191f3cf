import Verif.Base.CacheBase
/-!
# Caches with a prefetcher: the prefetcher calls of libCacheSim/cache/cache.c

Modelled for eviction algorithms whose `find` calls `cache_find_base` once with its own arguments (all but the composite ones).  `handle_find` is called there,
before the cache changes, and looks only at the request; `handle_evict` is called from `cache_evict_base`.  Neither touches the cache.
-/

namespace Verif.Prefetch
open Verif
variable {σ π : Type}

/-- The hooks of `prefetcher_t` that have an effect on the cache, prefetchAlgo.h:24-33. -/
structure Prefetcher (σ π : Type) where
  /-- `handle_find`, for a call of `find` with `update_cache` -/
  handleFind : π → Req → Res π
  /-- `prefetch` -/
  prefetch : Algo σ → σ × π → Req → Res (σ × π)

/-- `cache_get_base` with a prefetcher, cache.c:225-254 (prefetching in 249-251; `handle_find` in `cache_find_base`, 181-184). -/
def get (A : Algo σ) (P : Prefetcher σ π) (s : σ × π) (r : Req) : Res (Bool × (σ × π)) :=
  P.handleFind s.2 r >>= fun f =>
  A.get s.1 r >>= fun x =>
  P.prefetch A (x.2, f) r >>= fun s' => .ok (x.1, s')

/-- Serve a trace. -/
def gets (A : Algo σ) (P : Prefetcher σ π) : σ × π → List Req → Res (List Bool × (σ × π))
  | s, [] => .ok ([], s)
  | s, r :: rs => get A P s r >>= fun x => gets A P x.2 rs >>= fun y => .ok (x.1 :: y.1, y.2)

/-- The loop `while (get_occupied_byte + need > cache_size) evict(cache, q)` of the prefetchers, OBL.c:126-128, PG.c:171-174.  The fuel is the number of objects; when it is
used up the cache is empty, and one more eviction is either a fault or changes nothing for ever. -/
def makeRoom (A : Algo σ) (need : Nat) (q : Req) : Nat → σ → Res σ
  | m, s =>
    if A.occ s + (need : Int) > (A.cacheSize s : Int) then
      match m with
      | 0 => A.evict s q >>= fun _ => .error .diverge
      | m + 1 => A.evict s q >>= fun s' => makeRoom A need q m s'
    else .ok s

/-- Prefetch one object: `find` without update, room for `need` bytes, `insert`; OBL.c:122-129, PG.c:170-175.  `q` is the request handed to `evict`. -/
def fetch (A : Algo σ) (need : Nat) (q r : Req) (s : σ) : Res (Bool × σ) :=
  A.find s r false >>= fun x =>
  if x.1 then .ok (false, x.2)
  else
    makeRoom A need q (A.nObj x.2).toNat x.2 >>= fun s1 =>
    A.insert s1 r >>= fun s2 => .ok (true, s2)

end Verif.Prefetch
