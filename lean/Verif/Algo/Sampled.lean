import Verif.Base.CacheBase
import Mathlib.Algebra.Order.Field.Rat
/-!
# Eviction by sampling with a score: Hyperbolic.c and BeladySize.c

As in `Algo/Random.lean`, the random choices are a parameter: `picks` holds one number per call of `hashtable_rand_obj`, and the object
returned is the one at that position (modulo the number of cached objects).
-/

namespace Verif.Sampled
open Verif

/-- The `cache_t` part that both algorithms use; `cand` and `candVt` are `to_evict_candidate` and `to_evict_candidate_gen_vtime`
(cache.h:133-136). -/
structure State (μ : Type) where
  base : Base μ
  picks : List Nat
  cand : Option ObjId
  candVt : Int

variable {μ P : Type}

/-- `hashtable_rand_obj`, chainedHashTableV2.c:297-302.  On an empty table the loop does not end. -/
def randObj (tbl : List (Obj μ)) (picks : List Nat) : Res (Obj μ × List Nat) :=
  if h : tbl.length = 0 then .error .diverge
  else .ok (tbl[picks.headD 0 % tbl.length]'(Nat.mod_lt _ (Nat.pos_of_ne_zero h)), picks.tail)

/-- The sampling loop of `Hyperbolic_to_evict` (Hyperbolic.c:171-180) and `BeladySize_to_evict` (BeladySize.c:223-232): of `n` sampled
objects keep the first one whose score beats all scores so far; `best` and `bs` are the candidate and its score. -/
def pickBest (better : P → P → Bool) (score : Obj μ → P) (tbl : List (Obj μ)) :
    Nat → List Nat → Option (Obj μ) → P → Res (Option (Obj μ) × List Nat)
  | 0, picks, best, _ => .ok (best, picks)
  | n + 1, picks, best, bs =>
    randObj tbl picks >>= fun p =>
    if better (score p.1) bs then pickBest better score tbl n p.2 (some p.1) (score p.1) else pickBest better score tbl n p.2 best bs

end Verif.Sampled

namespace Verif.Hyperbolic
open Verif Sampled

/-- `Hyperbolic_obj_metadata_t`, cacheObj.h:60-64 -/
structure Meta where
  enter : Int
  freq : Int
deriving DecidableEq, Repr

abbrev State := Sampled.State Meta

/-- Rounding of a real number to a `double`: monotone, and exact on the integers that a `double` can represent without gaps. -/
structure Rounding where
  rnd : Rat → Rat
  mono : ∀ x y, x ≤ y → rnd x ≤ rnd y
  ints : ∀ n : Int, n.natAbs ≤ 2 ^ 53 → rnd n = n

/-- no rounding error at all -/
def Rounding.exact : Rounding := ⟨id, fun _ _ h => h, fun _ _ => rfl⟩

/-- The score computed in lines 173-175; `none` is `+inf` (and NaN, which compares alike with the bound), the result of a division by
zero.  `-inf` (age 0 and an access count that has wrapped) is represented by a number below every finite score. -/
def score (R : Rounding) (freq age : Int) : Option Rat :=
  if age = 0 then (if freq < 0 then some (-(10 ^ 30)) else none)
  else some (R.rnd (R.rnd (100000000 * R.rnd freq) / R.rnd age))

/-- `best_candidate_score > sampled_obj_score` -/
def lower : Option Rat → Option Rat → Bool
  | none, _ => false
  | some _, none => true
  | some x, some y => decide (x < y)

/-- `Hyperbolic_find`, Hyperbolic.c:128-137; `freq` is a 24-bit field and wraps. -/
def find (s : State) (r : Req) (update : Bool) : Res (Bool × State) :=
  match s.base.findBase r update with
  | (none, b) => .ok (false, { s with base := b })
  | (some o, b) =>
    if update then .ok (true, { s with base := b.modify o.id (fun o => { o with mt := { o.mt with freq := Int.bmod (o.mt.freq + 1) (2 ^ 24) } }) })
    else .ok (true, { s with base := b })

/-- `Hyperbolic_insert`, Hyperbolic.c:149-155; `vtime_enter_cache` is a 40-bit field. -/
def insert (s : State) (r : Req) : Res State :=
  .ok { s with base := s.base.insertBase { freq := 1, enter := Int.bmod s.base.nReq (2 ^ 40) } r }

/-- `Hyperbolic_to_evict`, Hyperbolic.c:167-186; `n` is `n_sample`. -/
def toEvict (R : Rounding) (n : Nat) (s : State) : Res (Option ObjId × State) :=
  pickBest lower (fun o : Obj Meta => score R o.mt.freq (s.base.nReq - o.mt.enter)) s.base.tbl n s.picks none (some (10 ^ 16)) >>= fun p =>
  .ok (p.1.map (·.id), { s with picks := p.2, cand := p.1.map (·.id), candVt := s.base.nReq })

/-- `Hyperbolic_evict`, Hyperbolic.c:197-213.  `cache_evict_base` dereferences the object. -/
def evict (R : Rounding) (n : Nat) (s : State) : Res State :=
  (if s.candVt = s.base.nReq then .ok (s.cand, s) else toEvict R n s) >>= fun p =>
  match p.1 with
  | none => .error .nullDeref
  | some id => p.2.base.evictBase id >>= fun b => .ok { p.2 with base := b, candVt := -1 }

/-- `Hyperbolic_remove`, Hyperbolic.c:215-241 -/
def remove (s : State) (id : ObjId) : Res (Bool × State) :=
  match s.base.lookup id with
  | none => .ok (false, s)
  | some o => s.base.removeObjBase o.id >>= fun b => .ok (true, { s with base := b })

/-- The function table, Hyperbolic.c:50-57. -/
def algo (R : Rounding) (n : Nat) : Algo State where
  find := find
  insert := insert
  evict := fun s _ => evict R n s
  remove := remove
  canInsert := fun s r => ((s.base.canInsertDefault r).1, { s with base := (s.base.canInsertDefault r).2 })
  occ := fun s => s.base.occ
  nObj := fun s => s.base.nObj
  cacheSize := fun s => s.base.cacheSize
  md := fun s => s.base.objMd
  bump := fun s => { s with base := s.base.bump }
  fuel := fun s => s.base.tbl.length + 1

/-- `Hyperbolic_init`, Hyperbolic.c:43-75 (`n_sample` is 64 by default); `picks` are the random numbers to come. -/
def init (cacheSize md : Nat) (adm : Adm) (picks : List Nat) : State :=
  { base := Base.init cacheSize md adm, picks, cand := none, candVt := -1 }

end Verif.Hyperbolic

namespace Verif.BeladySize
open Verif Sampled

/-- The per-object member is `Belady.next_access_vtime` (cacheObj.h:66-69); `cand` and `candVt` are not used. -/
abbrev State := Sampled.State Int

/-- `req->next_access_vtime == -1 || req->next_access_vtime == INT64_MAX`, BeladySize.c:138 and 160 -/
def noNext (r : Req) : Bool := r.next == -1 || r.next == int64Max

/-- `BeladySize_remove`, BeladySize.c:258-265 -/
def remove (s : State) (id : ObjId) : Res (Bool × State) :=
  match s.base.lookup id with
  | none => .ok (false, s)
  | some o => s.base.removeObjBase o.id >>= fun b => .ok (true, { s with base := b })

/-- `BeladySize_find`, BeladySize.c:128-147.  A hit on an object that is not used again removes it; the pointer returned is dangling but not
NULL, so the caller (`cache_get_base`) counts a hit. -/
def find (s : State) (r : Req) (update : Bool) : Res (Bool × State) :=
  match s.base.findBase r update with
  | (none, b) => .ok (false, { s with base := b })
  | (some o, b) =>
    if update then
      if noNext r then remove { s with base := b } o.id >>= fun p => .ok (true, p.2)
      else .ok (true, { s with base := b.modify o.id (fun o => { o with mt := r.next }) })
    else .ok (true, { s with base := b })

/-- `BeladySize_insert`, BeladySize.c:159-168 -/
def insert (s : State) (r : Req) : Res State :=
  if noNext r then .ok s else .ok { s with base := s.base.insertBase r.next r }

/-- The score, lines 225-227, a product of 64-bit numbers. -/
def score (nReq : Nat) (o : Obj Int) : Int := Int.bmod (o.size * Int.bmod (o.mt - nReq) (2 ^ 64)) (2 ^ 64)

/-- `BeladySize_to_evict` without `EXACT_Belady`, BeladySize.c:219-241; `n` is `n_sample`.  If no sampled object has a score above -1 the
function calls itself again.  Every round uses up `n` random numbers, so `rounds` bounds the number of rounds that can differ. -/
def toEvict (n : Nat) : Nat → State → Res (ObjId × State)
  | 0, _ => .error .diverge
  | rounds + 1, s =>
    pickBest (fun new old => decide (old < new)) (score s.base.nReq) s.base.tbl n s.picks none (-1) >>= fun p =>
    match p.1 with
    | some o => .ok (o.id, { s with picks := p.2 })
    | none => toEvict n rounds { s with picks := p.2 }

/-- `BeladySize_evict`, BeladySize.c:253-256 -/
def evict (n : Nat) (s : State) : Res State :=
  toEvict n (s.picks.length + 2) s >>= fun p => p.2.base.evictBase p.1 >>= fun b => .ok { p.2 with base := b }

/-- The function table, BeladySize.c:58-66. -/
def algo (n : Nat) : Algo State where
  find := find
  insert := insert
  evict := fun s _ => evict n s
  remove := remove
  canInsert := fun s r => ((s.base.canInsertDefault r).1, { s with base := (s.base.canInsertDefault r).2 })
  occ := fun s => s.base.occ
  nObj := fun s => s.base.nObj
  cacheSize := fun s => s.base.cacheSize
  md := fun s => s.base.objMd
  bump := fun s => { s with base := s.base.bump }
  fuel := fun s => s.base.tbl.length + 1

/-- `BeladySize_init`, BeladySize.c:55-79 (`n_sample` is 128 by default). -/
def init (cacheSize md : Nat) (adm : Adm) (picks : List Nat) : State :=
  { base := Base.init cacheSize md adm, picks, cand := none, candVt := -1 }

end Verif.BeladySize
