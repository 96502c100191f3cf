import Verif.Base.Types
/-!
# `cache_t` and the base functions of libCacheSim/cache/cache.c

Default build: `SUPPORT_TTL` off, no eviction-age tracking, no
prefetcher attached.
-/

namespace Verif

/-- `cache_t`, libCacheSim/include/libCacheSim/cache.h:93-162: the fields used by the base functions.
`tbl` is the content of `cache->hashtable`; the chained implementation is in
`Verif/Data/HashTable.lean`, whose refinement theorem justifies using a list here. -/
structure Base (μ : Type) where
  /-- `cache_size` (`int64_t`, set from an unsigned parameter) -/
  cacheSize : Nat
  /-- `obj_md_size` (`int32_t`, a non-negative constant chosen by each `*_init`) -/
  objMd : Nat
  nReq : Nat := 0
  nObj : Int := 0
  /-- `occupied_byte` -/
  occ : Int := 0
  tbl : List (Obj μ) := []
  adm : Adm := .none
deriving DecidableEq, Repr

namespace Base
variable {μ : Type}

/-- `hashtable_find`/`hashtable_find_obj_id` on the table contents
(libCacheSim/dataStructure/hashtable/chainedHashTableV2.c:111-135). -/
def lookup (b : Base μ) (id : ObjId) : Option (Obj μ) := b.tbl.find? (fun o => o.id == id)

/-- Write access through an object pointer obtained from the table. -/
def modify (b : Base μ) (id : ObjId) (f : Obj μ → Obj μ) : Base μ :=
  { b with tbl := b.tbl.map (fun o => if o.id = id then f o else o) }

/-- `hashtable_delete` (chainedHashTableV2.c:165-200): unlink the object from its chain and free it. -/
def del (b : Base μ) (id : ObjId) : Base μ :=
  { b with tbl := b.tbl.eraseP (fun o => o.id == id) }

/-- `cache_can_insert_default`, libCacheSim/cache/cache.c:141-161: ask the admission policy, then check
that the object fits in the whole cache. -/
def canInsertDefault (b : Base μ) (r : Req) : Bool × Base μ :=
  let b' := { b with adm := (b.adm.admit r).2 }
  if (b.adm.admit r).1 = false then (false, b')
  else if r.size + b.objMd > b.cacheSize then (false, b')
  else (true, b')

/-- `cache_find_base`, libCacheSim/cache/cache.c:175-204, without prefetcher and TTL. -/
def findBase (b : Base μ) (r : Req) (update : Bool) : Option (Obj μ) × Base μ :=
  match b.lookup r.id with
  | none => (none, b)
  | some _ =>
    let b' := if update then
        b.modify r.id (fun o => { o with miscNext := r.next, miscFreq := o.miscFreq + 1 })
      else b
    (b'.lookup r.id, b')

/-- `cache_insert_base`, libCacheSim/cache/cache.c:266-287.  `z` is the zero value of the union member.
The C code adds `(int64_t)obj_size + (int64_t)obj_md_size`. -/
def insertBase (b : Base μ) (z : μ) (r : Req) : Base μ :=
  let o := Obj.ofReq z r
  { b with tbl := o :: b.tbl, occ := b.occ + ((o.size : Int) + (b.objMd : Int)), nObj := b.nObj + 1 }

/-- `cache_remove_obj_base(cache, obj, true)`, libCacheSim/cache/cache.c:327-335.  The object is passed by
pointer; a pointer to an object no longer in the table is dangling.  Unlike in `cache_insert_base` the sum
`obj->obj_size + cache->obj_md_size` is computed without casts, i.e. in 32-bit unsigned arithmetic. -/
def removeObjBase (b : Base μ) (id : ObjId) : Res (Base μ) :=
  match b.lookup id with
  | none => .error .useAfterFree
  | some o =>
    .ok ({ b with occ := b.occ - (((o.size + b.objMd) % u32 : Nat) : Int), nObj := b.nObj - 1 }.del id)

/-- `cache_remove_obj_base(cache, obj, false)`: counters only, the object stays in the table
(used for ghost entries, cache.c:327-335). -/
def removeObjBaseKeep (b : Base μ) (id : ObjId) : Res (Base μ) :=
  match b.lookup id with
  | none => .error .useAfterFree
  | some o =>
    .ok { b with occ := b.occ - (((o.size + b.objMd) % u32 : Nat) : Int), nObj := b.nObj - 1 }

/-- `cache_evict_base(cache, obj, true)`, libCacheSim/cache/cache.c:297-316, no prefetcher. -/
def evictBase (b : Base μ) (id : ObjId) : Res (Base μ) := b.removeObjBase id

/-- `cache->n_req += 1`, first statement of `cache_get_base`, cache.c:226. -/
def bump (b : Base μ) : Base μ := { b with nReq := b.nReq + 1 }

/-- `cache_struct_init`, libCacheSim/cache/cache.c:23-65. -/
def init (cacheSize md : Nat) (adm : Adm) : Base μ :=
  { cacheSize := cacheSize, objMd := md, adm := adm }

end Base

/-- The function pointers of `cache_t` (libCacheSim/include/libCacheSim/cache.h:96-109) that
`cache_get_base` calls.  `find`, and `canInsert` return what the C function returns (hit?/true?) and the new
state; `fuel` is a model artefact: an upper bound on the number of iterations of the eviction loop,
justified by the theorems that exclude `Fault.diverge`. -/
structure Algo (σ : Type) where
  find : σ → Req → Bool → Res (Bool × σ)
  insert : σ → Req → Res σ
  evict : σ → Req → Res σ
  remove : σ → ObjId → Res (Bool × σ)
  canInsert : σ → Req → Bool × σ
  /-- `get_occupied_byte` -/
  occ : σ → Int
  /-- `get_n_obj` -/
  nObj : σ → Int
  cacheSize : σ → Nat
  md : σ → Nat
  /-- `n_req += 1` -/
  bump : σ → σ
  fuel : σ → Nat

section
variable {σ : Type}

/-- Loop condition of `cache_get_base`, cache.c:240-243. -/
def Algo.mustEvict (A : Algo σ) (s : σ) (r : Req) : Bool :=
  decide (A.occ s + (r.size : Int) + (A.md s : Int) > (A.cacheSize s : Int))

/-- The loop `while (occupied + size + md > cache_size) cache->evict(cache, req);`, cache.c:240-245. -/
def Algo.evictLoop (A : Algo σ) (r : Req) : Nat → σ → Res σ
  | 0, s => if A.mustEvict s r then .error .diverge else .ok s
  | n + 1, s =>
    if A.mustEvict s r then
      A.evict s r >>= fun s' => A.evictLoop r n s'
    else .ok s

/-- `cache_get_base`, libCacheSim/cache/cache.c:225-254 (no prefetcher): returns hit?, new state. -/
def Algo.get (A : Algo σ) (s : σ) (r : Req) : Res (Bool × σ) :=
  A.find (A.bump s) r true >>= fun (hit, s1) =>
  if hit then .ok (true, s1)
  else
    match A.canInsert s1 r with
    | (false, s2) => .ok (false, s2)
    | (true, s2) =>
      A.evictLoop r (A.fuel s2) s2 >>= fun s3 =>
      A.insert s3 r >>= fun s4 => .ok (false, s4)

/-- The calls a client can make on a cache.  `evict` and `insert` are used by clients only under the
documented preconditions: evict on a non-empty cache; insert of an object that is not cached and for which
there is room ("this function assumes the cache has enough space", cache.c:256-265). -/
inductive Op where
  | get (r : Req)
  | find (r : Req) (update : Bool)
  | remove (id : ObjId)
  | evict (r : Req)
  | insert (r : Req)
deriving DecidableEq, Repr

/-- Execute one client call.  The Boolean is hit?/removed?; a call whose documented precondition does not hold
is skipped by the client and returns `false`. -/
def Algo.step (A : Algo σ) (s : σ) : Op → Res (Bool × σ)
  | .get r => A.get s r
  | .find r u => A.find s r u
  | .remove id => A.remove s id
  | .evict r => if A.nObj s > 0 then A.evict s r >>= fun s' => .ok (true, s') else .ok (false, s)
  | .insert r =>
      A.find s r false >>= fun (hit, s0) =>
      if hit = false ∧ A.mustEvict s0 r = false then A.insert s0 r >>= fun s' => .ok (true, s')
      else .ok (false, s0)

/-- Execute a list of client calls, collecting the returned Booleans. -/
def Algo.run (A : Algo σ) (s : σ) : List Op → Res (List Bool × σ)
  | [] => .ok ([], s)
  | op :: ops =>
    A.step s op >>= fun (b, s1) =>
    A.run s1 ops >>= fun (bs, s2) => .ok (b :: bs, s2)

/-- Serve a request trace with `get`, collecting hits. -/
def Algo.gets (A : Algo σ) (s : σ) : List Req → Res (List Bool × σ)
  | [] => .ok ([], s)
  | r :: rs =>
    A.get s r >>= fun (b, s1) =>
    A.gets s1 rs >>= fun (bs, s2) => .ok (b :: bs, s2)

end

end Verif
