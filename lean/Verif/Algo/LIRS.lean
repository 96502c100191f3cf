import Verif.Algo.LRU
/-!
# libCacheSim/cache/eviction/LIRS.c

Three LRU caches: the stack `S` (blocks with low inter-reference recency, "LIR", and blocks with a high one, "HIR", whether cached or not), the queue `Q` of
the HIR blocks that are cached, and `NH` with the blocks of the stack that are not cached.

Simplifications: the size of the queue is a parameter (the C code multiplies the cache size with 0.01 and takes at least 1, LIRS.c:93-96).  Additions to the
counters do not overflow; subtractions wrap around as in C.  `LIRS_can_insert` evicts and may crash; the model's `canInsert` cannot return a fault, so it keeps it in the
state and the next call raises it.  `LIRS_get` (LIRS.c:151-182) runs `cache_get_base` and then `limitStack`: the model does the latter at the end of each of the three ways
through `cache_get_base` (a hit, a refusal, an insertion); `plain` has the functions as they are, and `get_eq` in `Verif/Proof/LIRSGet.lean` proves the two equal.
`LIRS_remove` reads the sizes of objects it has just freed: they are still there unless `strict`, which makes these reads faults.
The functions that print the cache and `hit_NR_HIRinS` (which nothing calls) are not modelled.
-/

namespace Verif.LIRS
open Verif

/-- `LIRS_obj_metadata_t`, include/libCacheSim/cacheObj.h:71-74 -/
structure Meta where
  isLIR : Bool := false
  inCache : Bool := false
deriving DecidableEq, Repr

/-- `LIRS_params_t`, LIRS.c:18-28, and the outer `cache_t`, whose hash table stays empty. -/
structure State where
  base : Base Unit
  /-- `LRU_s` -/
  S : QState Meta
  /-- `LRU_q` -/
  Q : QState Meta
  /-- `LRU_nh` -/
  NH : QState Meta
  hirsLimit : Nat
  lirsLimit : Nat
  hirsCount : Nat := 0
  lirsCount : Nat := 0
  nonresident : Nat := 0
  /-- a fault in `LIRS_can_insert` not yet raised -/
  fail : Option Fault := none
  /-- between the start and the end of `LIRS_get` -/
  inGet : Bool := false
  /-- reads of freed memory are faults -/
  strict : Bool := false

/-- `LIRS_init`, LIRS.c:72-117; `hl` is `hirs_limit`. -/
def init (cacheSize hl md : Nat) (adm : Adm) (strict : Bool) : State :=
  { base := Base.init cacheSize md adm
    S := QState.init (cacheSize - hl) md .none
    Q := QState.init hl md .none
    NH := QState.init cacheSize md .none
    hirsLimit := hl
    lirsLimit := cacheSize - hl
    strict := strict }

/-- subtraction of `uint64_t` -/
def sub64 (a b : Nat) : Nat := if b ≤ a then a - b else a + 18446744073709551616 - b

/-- `cache->occupied_byte += n; cache->n_obj += k` on the outer cache -/
def State.count (s : State) (n k : Int) : State := { s with base := { s.base with occ := s.base.occ + n, nObj := s.base.nObj + k } }

/-- an object of an inner cache found without update -/
def peek (q : QState Meta) (id : ObjId) : Option (Obj Meta) := q.base.lookup id

/-- The loop of `LIRS_prune`, LIRS.c:503-521; `n` bounds the iterations. -/
def pruneLoop : Nat → State → Res State
  | 0, s => if s.S.q.getLast? = s.S.q.head? then .ok s else .error .diverge
  | n + 1, s =>
    if s.S.q.getLast? = s.S.q.head? then .ok s
    else
      s.S.tailObj >>= fun o =>
      if o.mt.isLIR then .ok s
      else
        (if o.mt.inCache = false then
            s.NH.remove o.id >>= fun p =>
            .ok { s with NH := p.2, nonresident := if p.1 then sub64 s.nonresident o.size else s.nonresident }
          else .ok s) >>= fun s1 =>
        s1.S.evictTail >>= fun S' => pruneLoop n { s1 with S := S' }

/-- `LIRS_prune`, LIRS.c:496-522. -/
def prune (s : State) : Res State := pruneLoop s.S.q.length s

/-- `evictHIR`, LIRS.c:618-645. -/
def evictHIR (s : State) : Res State :=
  s.Q.tailObj >>= fun o =>
  s.Q.evictTail >>= fun Q' =>
  (match peek s.S o.id with
    | some x =>
      s.NH.insert {} o.toReq >>= fun NH' =>
      .ok { s with S := s.S.modify x.id (fun y => { y with mt := { y.mt with inCache := false } }), NH := NH', nonresident := s.nonresident + x.size }
    | none => .ok s) >>= fun s1 =>
  .ok ({ s1 with Q := Q', hirsCount := sub64 s.hirsCount o.size }.count (-((o.size + s.base.objMd : Nat) : Int)) (-1))

/-- `while (params->hirs_count + need > params->hirs_limit) evictHIR(cache);`, LIRS.c:481-483 and 599-601. -/
def hirLoop (need : Nat) : Nat → State → Res State
  | 0, s => if s.hirsCount + need > s.hirsLimit then .error .diverge else .ok s
  | n + 1, s => if s.hirsCount + need > s.hirsLimit then evictHIR s >>= fun s' => hirLoop need n s' else .ok s

/-- `evictLIR`, LIRS.c:581-616. -/
def evictLIR (s : State) : Res State :=
  s.S.tailObj >>= fun o =>
  s.S.evictTail >>= fun S' =>
  let s1 : State := ({ s with S := S', lirsCount := sub64 s.lirsCount o.size } : State).count (-((o.size + s.base.objMd : Nat) : Int)) (-1)
  (if o.size ≤ s1.hirsLimit then
      hirLoop o.size (s1.Q.q.length + 1) s1 >>= fun s2 =>
      s2.Q.insert ⟨false, true⟩ o.toReq >>= fun Q' =>
      .ok (({ s2 with Q := Q', hirsCount := s2.hirsCount + o.size } : State).count ((o.size + s.base.objMd : Nat) : Int) 1)
    else .ok s1) >>= fun s3 =>
  prune s3

/-- `while (params->lirs_count + obj->obj_size > params->lirs_limit) evictLIR(cache);`, LIRS.c:464-466, 535-537, 571-573; `obj` is the object `id` of the stack or
(`inS = false`) of the queue, read through a pointer each time.  The answer is its size. -/
def lirLoop (inS : Bool) (id : ObjId) : Nat → State → Res (Nat × State)
  | 0, _ => .error .diverge
  | n + 1, s =>
    match peek (if inS then s.S else s.Q) id with
    | none => .error .useAfterFree
    | some o => if s.lirsCount + o.size > s.lirsLimit then evictLIR s >>= fun s' => lirLoop inS id n s' else .ok (o.size, s)

/-- `hit_RD_HIRinS`, LIRS.c:524-547; `q` is `cache_obj_q`. -/
def hitInS (s : State) (id : ObjId) (q : Option (Obj Meta)) : Res State :=
  (match q with
    | some o =>
      s.Q.remove o.id >>= fun p =>
      .ok ({ s with Q := p.2, hirsCount := sub64 s.hirsCount o.size }.count (-(o.size : Int)) (-1))
    | none => .ok s) >>= fun s1 =>
  lirLoop true id (s1.S.q.length + 1) s1 >>= fun x =>
  .ok ({ x.2 with S := x.2.S.modify id (fun y => { y with mt := { y.mt with isLIR := true } }), lirsCount := x.2.lirsCount + x.1 }.count (x.1 : Int) 1)

/-- `hit_RD_HIRinQ`, LIRS.c:559-579; `r` is `req_local`, copied from the object in the queue. -/
def hitInQ (s : State) (r : Req) : Res State :=
  lirLoop false r.id (s.S.q.length + 1) s >>= fun x =>
  x.2.S.insert ⟨false, true⟩ r >>= fun S' => .ok { x.2 with S := S' }

/-- `LIRS_find`, LIRS.c:200-240. -/
def find0 (s : State) (r : Req) (update : Bool) : Res (Bool × State) :=
  s.S.findLRU r update >>= fun a =>
  s.Q.findLRU r update >>= fun b =>
  let s1 := { s with S := a.2, Q := b.2 }
  match a.1, b.1 with
  | some o, q =>
    if o.mt.isLIR then prune s1 >>= fun s' => .ok (true, s')
    else if o.mt.inCache then hitInS s1 o.id q >>= fun s' => .ok (true, s')
    else .ok (false, s1)
  | none, some o => if o.mt.inCache then hitInQ s1 o.toReq >>= fun s' => .ok (true, s') else .error .assertFail
  | none, none => .ok (false, s1)

/-- insertion into the stack and the queue as a cached HIR block, LIRS.c:276-286, 300-310, 313-323; the size added to the counters is that of the new object. -/
def insertHIR (s : State) (r : Req) : Res State :=
  s.S.insert ⟨false, true⟩ r >>= fun S' =>
  s.Q.insert ⟨false, true⟩ r >>= fun Q' =>
  .ok ({ s with S := S', Q := Q', hirsCount := s.hirsCount + r.size % u32 }.count ((r.size % u32 + s.base.objMd : Nat) : Int) 1)

/-- `LIRS_insert`, LIRS.c:253-327. -/
def insert0 (s : State) (r : Req) : Res State :=
  match peek s.S r.id, peek s.Q r.id with
  | some o, _ =>
    if o.mt.isLIR = false ∧ o.mt.inCache = false then
      .ok ({ s with S := s.S.modify o.id (fun y => { y with mt := ⟨true, true⟩ }), lirsCount := s.lirsCount + o.size }.count ((o.size + s.base.objMd : Nat) : Int) 1)
    else .ok s
  | none, some o => if o.mt.inCache = false then insertHIR s r else .ok s
  | none, none =>
    if s.lirsCount + r.size ≤ s.lirsLimit then
      s.S.insert ⟨true, true⟩ r >>= fun S' =>
      .ok ({ s with S := S', lirsCount := s.lirsCount + r.size % u32 }.count ((r.size % u32 + s.base.objMd : Nat) : Int) 1)
    else insertHIR s r

/-- `while (params->hirs_count >= params->hirs_limit) evictHIR(cache);`, LIRS.c:361-363 and 372-374. -/
def fullLoop : Nat → State → Res State
  | 0, s => if s.hirsCount ≥ s.hirsLimit then .error .diverge else .ok s
  | n + 1, s => if s.hirsCount ≥ s.hirsLimit then evictHIR s >>= fun s' => fullLoop n s' else .ok s

/-- `LIRS_evict`, LIRS.c:351-388. -/
def evict0 (s : State) (r : Req) : Res State :=
  match peek s.S r.id, peek s.Q r.id with
  | some o, _ =>
    if o.mt.isLIR = false ∧ o.mt.inCache = false then fullLoop (s.Q.q.length + 1) s >>= fun s1 => evictLIR s1
    else .ok s
  | none, some o => if o.mt.inCache = false then fullLoop (s.Q.q.length + 1) s else .ok s
  | none, none => if s.lirsCount + r.size > s.lirsLimit ∧ s.hirsCount + r.size > s.hirsLimit then evictHIR s else .ok s

/-- the size of an object that has just been freed -/
def freedSize (s : State) (o : Obj Meta) : Res Nat := if s.strict then .error .useAfterFree else .ok o.size

/-- `LIRS_remove`, LIRS.c:404-446. -/
def remove0 (s : State) (id : ObjId) : Res (Bool × State) :=
  match peek s.S id, peek s.Q id with
  | some o, q =>
    s.S.remove id >>= fun p =>
    freedSize s o >>= fun n =>
    if o.mt.isLIR then
      prune ({ s with S := p.2, lirsCount := sub64 s.lirsCount n }.count (-(n : Int)) (-1)) >>= fun s' => .ok (true, s')
    else
      let s1 : State := if o.mt.inCache then ({ s with S := p.2, hirsCount := sub64 s.hirsCount n } : State).count (-(n : Int)) (-1)
        else { s with S := p.2, nonresident := sub64 s.nonresident n }
      match q with
      | some _ => s1.Q.remove id >>= fun p' => .ok (true, { s1 with Q := p'.2 })
      | none => .ok (true, s1)
  | none, some o =>
    s.Q.remove id >>= fun p =>
    freedSize s o >>= fun n =>
    if o.mt.inCache then .ok (true, { s with Q := p.2, hirsCount := sub64 s.hirsCount n }.count (-(n : Int)) (-1))
    else .error .assertFail
  | none, none => .ok (false, s)

/-- `LIRS_can_insert` after the default checks, LIRS.c:457-493. -/
def canInsert1 (s : State) (r : Req) : Res (Bool × State) :=
  match peek s.S r.id, peek s.Q r.id with
  | some o, _ =>
    if o.mt.isLIR = false ∧ o.mt.inCache = false then
      lirLoop true o.id (s.S.q.length + 1) s >>= fun x =>
      x.2.NH.remove o.id >>= fun p =>
      .ok (true, { x.2 with NH := p.2, nonresident := if p.1 then sub64 x.2.nonresident x.1 else x.2.nonresident })
    else .error .abort
  | none, some _ => .error .abort
  | none, none =>
    if r.size > s.lirsLimit ∨ r.size > s.hirsLimit then .ok (false, s)
    else if s.lirsCount + r.size > s.lirsLimit ∧ s.hirsCount + r.size > s.hirsLimit then
      hirLoop r.size (s.Q.q.length + 1) s >>= fun s' => .ok (true, s')
    else .ok (true, s)

/-- `LIRS_can_insert`, LIRS.c:453-494. -/
def canInsert0 (s : State) (r : Req) : Res (Bool × State) :=
  if (s.base.canInsertDefault r).1 = false then .ok (false, { s with base := (s.base.canInsertDefault r).2 })
  else canInsert1 { s with base := (s.base.canInsertDefault r).2 } r

/-- The loop of `limitStack`, LIRS.c:650-659. -/
def limitLoop : Nat → State → Res State
  | 0, s => .ok s
  | n + 1, s =>
    if s.S.base.occ > 2 * (s.base.cacheSize : Int) then
      match s.NH.q.getLast? with
      | none => .ok s
      | some id =>
        s.NH.tailObj >>= fun o =>
        s.S.remove id >>= fun p =>
        s.NH.evictTail >>= fun NH' => limitLoop n { s with S := p.2, NH := NH', nonresident := sub64 s.nonresident o.size }
    else .ok s

/-- `limitStack`, LIRS.c:647-660: at most one round for each object of `NH`. -/
def limitStack (s : State) : Res State := limitLoop s.NH.q.length s

/-- raise the fault `LIRS_can_insert` ran into -/
def State.raise {α : Type} (s : State) (k : Res α) : Res α :=
  match s.fail with
  | some e => .error e
  | none => k

/-- the end of `LIRS_get`, LIRS.c:154, if this is the end of one -/
def finish (s : State) : Res State := if s.inGet then limitStack { s with inGet := false } else .ok s

def find (s : State) (r : Req) (update : Bool) : Res (Bool × State) :=
  s.raise (find0 s r update) >>= fun p => if p.1 then finish p.2 >>= fun s' => .ok (true, s') else .ok p

def insert (s : State) (r : Req) : Res State := s.raise (insert0 s r) >>= finish

/-- a fault is kept for the next call -/
def latch (s : State) (x : Res (Bool × State)) : Bool × State :=
  match x with
  | .ok p => p
  | .error e => (true, { s with fail := some e })

def canInsert (s : State) (r : Req) : Bool × State :=
  latch s (canInsert0 s r >>= fun p => if p.1 then .ok p else finish p.2 >>= fun s' => .ok (false, s'))

/-- The function table, LIRS.c:76-84. -/
def algo : Algo State where
  find := find
  insert := insert
  evict := fun s r => s.raise (evict0 s r)
  remove := fun s id => s.raise (remove0 s id)
  canInsert := canInsert
  occ := fun s => s.base.occ
  nObj := fun s => s.base.nObj
  cacheSize := fun s => s.base.cacheSize
  md := fun s => s.base.objMd
  bump := fun s => { s with base := s.base.bump, inGet := true }
  fuel := fun s => s.Q.q.length + s.S.q.length + 1

/-- The functions without the end of `LIRS_get`. -/
def plain : Algo State where
  find := fun s r u => s.raise (find0 s r u)
  insert := fun s r => s.raise (insert0 s r)
  evict := fun s r => s.raise (evict0 s r)
  remove := fun s id => s.raise (remove0 s id)
  canInsert := fun s r => latch s (canInsert0 s r)
  occ := fun s => s.base.occ
  nObj := fun s => s.base.nObj
  cacheSize := fun s => s.base.cacheSize
  md := fun s => s.base.objMd
  bump := fun s => { s with base := s.base.bump }
  fuel := fun s => s.Q.q.length + s.S.q.length + 1

/-- `obj_md_size`, LIRS.c:86-90. -/
def mdSize (considerMd : Bool) : Nat := if considerMd then 16 else 0

end Verif.LIRS
