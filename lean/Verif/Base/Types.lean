import Verif.Base.Res
/-!
# Requests, cached objects, admission policies
-/

namespace Verif

/-- `obj_id_t` (libCacheSim/include/config.h:64: `typedef uint64_t obj_id_t`).
Only equality of ids is used by the cache layer, so the model takes all of `Nat`. -/
abbrev ObjId := Nat

/-- `request_t`, libCacheSim/include/libCacheSim/request.h:21-65 — the fields the cache layer reads.
`obj_size` is an `int64_t` in C; negative sizes are not modelled.  `next_access_vtime` keeps its
sentinels (`-2` unset, `INT64_MAX` never again). -/
structure Req where
  id : ObjId
  size : Nat
  /-- `next_access_vtime` -/
  next : Int := -2
deriving DecidableEq, Repr

/-- `INT64_MAX` -/
abbrev int64Max : Int := 9223372036854775807

/-- 2^32: `cache_obj_t.obj_size` is a `uint32_t`. -/
abbrev u32 : Nat := 4294967296

/-- `cache_obj_t`, libCacheSim/include/libCacheSim/cacheObj.h:137-185.  The list pointers `queue.prev`,
`queue.next` and the chain pointer `hash_next` are modelled separately (`Verif/Data/DList.lean`,
`Verif/Data/HashTable.lean`); `μ` is the algorithm-specific member of the anonymous union. -/
structure Obj (μ : Type) where
  id : ObjId
  /-- `uint32_t obj_size` -/
  size : Nat
  /-- `misc.next_access_vtime` -/
  miscNext : Int
  /-- `misc.freq` -/
  miscFreq : Int
  /-- the union member of the algorithm -/
  mt : μ
deriving DecidableEq, Repr

/-- `copy_request_to_cache_obj`/`create_cache_obj_from_request`, libCacheSim/cache/cacheObj.c:28-49, as
called by `hashtable_insert`, followed by the misc updates of `cache_insert_base`
(cache.c:283-284): the 64-bit request size is assigned to a `uint32_t`, i.e. reduced modulo 2^32; the
object is zero-initialised (`default` for the union). -/
def Obj.ofReq {μ : Type} (z : μ) (r : Req) : Obj μ :=
  { id := r.id, size := r.size % u32, miscNext := r.next, miscFreq := 0, mt := z }

/-- Keys of the GLib hash table `seen_times` of bloomfilter admission are pointers; the lookup key is
`GSIZE_TO_POINTER(obj_id)` (the full 64-bit id), the insertion key is `GINT_TO_POINTER(obj_id)`, which
converts to `int` (32 bits, two's complement) and sign-extends: libCacheSim/cache/admission/bloomfilter.c:20-22. -/
def gintToPointer (id : Nat) : Nat :=
  let lo := id % u32
  if lo < 2147483648 then lo else lo + (18446744073709551616 - u32)

/-- Admission policies (`admissioner_t`, libCacheSim/include/libCacheSim/admissionAlgo.h).
`oracle ds` stands for every other policy (probabilistic, adaptsize, user plug-ins): it is represented by the
list of answers it is going to give, consumed one per query; a finite run only asks finitely often, so
quantifying over `ds` covers all of them. -/
inductive Adm where
  /-- `cache->admissioner == NULL` -/
  | none
  /-- libCacheSim/cache/admission/size.c -/
  | size (threshold : Int)
  /-- libCacheSim/cache/admission/bloomfilter.c: the keys present in `seen_times` -/
  | bloom (seen : List Nat)
  /-- any other policy, by its future answers -/
  | oracle (answers : List Bool)
deriving DecidableEq, Repr

/-- `admissioner->admit(admissioner, req)`: `size_admit` (size.c:16-23), `bloomfilter_admit`
(bloomfilter.c:18-31; the counts stored in the table are only compared with NULL, so the model keeps the
key set).  `oracle []` answers `false`. -/
def Adm.admit : Adm → Req → Bool × Adm
  | .none, _ => (true, .none)
  | .size t, r => (decide ((r.size : Int) < t), .size t)
  | .bloom seen, r =>
      if seen.contains r.id then (true, .bloom (gintToPointer r.id :: seen))
      else (false, .bloom (gintToPointer r.id :: seen))
  | .oracle [], _ => (false, .oracle [])
  | .oracle (d :: ds), _ => (d, .oracle ds)

end Verif
