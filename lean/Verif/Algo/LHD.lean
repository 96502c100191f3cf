import Verif.Base.CacheBase
import Mathlib.Algebra.Order.Field.Rat
/-!
# LHD (libCacheSim/cache/eviction/LHD/{LHD_Interface.cpp, lhd.cpp, lhd.hpp, candidate.hpp})

The random numbers are a parameter: `picks` holds one number per call of `next_rand`.  `float` values are rational numbers and every
arithmetic operation on them rounds with an arbitrary `Rounding`; overflow of a `float` is not modelled (all counts stay far below the
largest one).  The arrays of `MAX_AGE` numbers are functions of the index, and the places that compute an index check it.
The output that is only printed (`overflows`, `totalHits`, `totalEvictions`, `dumpClassRanks`) is left out.
-/

namespace Verif.LHD
open Verif

/-- `MAX_AGE`, lhd.hpp:93 -/
def maxAge : Nat := 20000
/-- `HIT_AGE_CLASSES`, lhd.hpp:86 -/
abbrev hitAgeClasses : Nat := 16
/-- `APP_CLASSES`, lhd.hpp:87 -/
abbrev appClasses : Nat := 16
/-- `NUM_CLASSES`, lhd.hpp:88 -/
abbrev numClasses : Nat := hitAgeClasses * appClasses
/-- `ACCS_PER_RECONFIGURATION`, lhd.hpp:94 -/
abbrev accsPerReconfiguration : Nat := 2 ^ 20
/-- `EXPLORE_INVERSE_PROBABILITY`, lhd.hpp:82 -/
abbrev exploreInverse : Nat := 32
/-- `params->admission`, LHD_Interface.cpp:90-92 -/
abbrev admissions : Nat := 8
/-- `params->associativity`, LHD_Interface.cpp:93-95 -/
abbrev associativity : Nat := 32
/-- `std::numeric_limits<float>::max()` -/
abbrev fltMax : Rat := 340282346638528859811704183484516925440

/-- Rounding of a real number to a `float`: monotone, exact on the numbers that are results of roundings and on the integers that a
`float` represents without gaps. -/
structure Rounding where
  rnd : Rat → Rat
  mono : ∀ x y, x ≤ y → rnd x ≤ rnd y
  idem : ∀ x, rnd (rnd x) = rnd x
  ints : ∀ n : Int, n.natAbs ≤ 2 ^ 24 → rnd n = n

/-- no rounding error at all -/
def Rounding.exact : Rounding := ⟨id, fun _ _ h => h, fun _ => rfl, fun _ _ => rfl⟩

/-- `EWMA_DECAY`, lhd.hpp:95 -/
def decay (R : Rounding) : Rat := R.rnd (9 / 10)

/-- `struct Tag`, lhd.hpp:21-30 (of the candidate, the object id; the application id is always `DEFAULT_APP_ID`) -/
structure Tag where
  timestamp : Nat := 0
  lastHitAge : Nat := 0
  lastLastHitAge : Nat := 0
  app : Nat := 0
  id : ObjId := 0
  size : Rat := 0
  explorer : Bool := false
deriving DecidableEq, Repr

/-- `struct Class`, lhd.hpp:33-40 -/
structure Class where
  hits : Nat → Rat
  evictions : Nat → Rat
  dens : Nat → Rat

/-- The fields of `cache_t` (`base`; its hash table is not used), of `LHD_params_t` (LHD_Interface.cpp:15-22: `cand`; `candVt` is
`to_evict_candidate_gen_vtime`, cache.h:136) and of class `LHD` (lhd.hpp:56-129). -/
structure State where
  base : Base Unit
  sizeMap : List (ObjId × Nat)
  tags : List Tag
  indices : ObjId → Option Nat
  classes : Nat → Class
  timestamp : Nat
  nextReconfiguration : Nat
  numReconfigurations : Nat
  shift : Nat
  ewmaNumObjects : Rat
  ewmaNumObjectsMass : Rat
  recent : List (Option ObjId)
  recentHead : Nat
  ewmaVictim : Rat
  budget : Int
  picks : List Nat
  cand : Option ObjId
  candVt : Int

/-- assignment to one element of an array, or to one key of a map -/
def set {α : Type} (f : Nat → α) (i : Nat) (v : α) : Nat → α := fun j => if j = i then v else f j

/-- conversion of a `float` to an integer, toward zero -/
def toInt (x : Rat) : Int := if 0 ≤ x then x.floor else -((-x).floor)

/-! ### Ages, classes and hit densities -/

/-- The loop of `hitAgeClass`, lhd.hpp:139-142: how often `age` has to be doubled to reach `MAX_AGE`, at most `n` times. -/
def doublings : Nat → Nat → Nat
  | 0, _ => 0
  | n + 1, age => if age < maxAge then doublings n (2 * age) + 1 else 0

/-- `hitAgeClass`, lhd.hpp:134-144 -/
def hitAgeClass (age : Nat) : Nat := if age = 0 then hitAgeClasses - 1 else doublings (hitAgeClasses - 1) age

/-- `getClassId`, lhd.hpp:146-150 -/
def classId (t : Tag) : Nat := t.app * hitAgeClasses + hitAgeClass (t.lastHitAge + t.lastLastHitAge)

/-- `getAge`, lhd.hpp:174-184 -/
def age (s : State) (t : Tag) : Nat := min ((s.timestamp - t.timestamp) / 2 ^ s.shift) (maxAge - 1)

/-- `getHitDensity`, lhd.hpp:186-201.  `none` is infinity or NaN, the result of a division by zero: both compare alike below. -/
def density (R : Rounding) (s : State) (t : Tag) : Res (Option Rat) :=
  if age s t = maxAge - 1 then .ok (some (-fltMax))
  else if classId t ≥ numClasses then .error .outOfBounds
  else if t.size = 0 then .ok none
  else if t.explorer then .ok (some (R.rnd (R.rnd ((s.classes (classId t)).dens (age s t) / t.size) + 1)))
  else .ok (some (R.rnd ((s.classes (classId t)).dens (age s t) / t.size)))

/-- `rank < victimRank` -/
def below : Option Rat → Rat → Bool
  | none, _ => false
  | some x, y => decide (x < y)

/-! ### Reconfiguration -/

/-- `updateClass`, lhd.cpp:199-210 -/
def updateClass (R : Rounding) (c : Class) : Class :=
  { c with
    hits := fun a => if a < maxAge then R.rnd (c.hits a * decay R) else c.hits a
    evictions := fun a => if a < maxAge then R.rnd (c.evictions a * decay R) else c.evictions a }

/-- The loop of `modelHitDensity`, lhd.cpp:223-235.  The first argument is one more than the loop variable. -/
def modelLoop (R : Rounding) (c : Class) : Nat → Rat → Rat → Rat → (Nat → Rat) → (Nat → Rat)
  | 0, _, _, _, d => d
  | a + 1, events, hits, life, d =>
    modelLoop R c a (R.rnd (events + R.rnd (c.hits a + c.evictions a))) (R.rnd (hits + c.hits a))
      (R.rnd (life + R.rnd (events + R.rnd (c.hits a + c.evictions a))))
      (set d a (if R.rnd (events + R.rnd (c.hits a + c.evictions a)) > 1 / 100000 then
          R.rnd (R.rnd (hits + c.hits a) / R.rnd (life + R.rnd (events + R.rnd (c.hits a + c.evictions a))))
        else 0))

/-- `modelHitDensity` for one class, lhd.cpp:212-237 -/
def modelClass (R : Rounding) (c : Class) : Class :=
  { c with
    dens := modelLoop R c (maxAge - 1) (R.rnd (c.hits (maxAge - 1) + c.evictions (maxAge - 1))) (c.hits (maxAge - 1))
      (R.rnd (c.hits (maxAge - 1) + c.evictions (maxAge - 1))) c.dens }

/-- `while ((1 << l) < optimalAgeCoarsening) l += 1`, lhd.cpp:317-319.  The shift overflows when more than 2^37 objects are cached; the model
stops there. -/
def log2Loop (x : Rat) : Nat → Nat → Nat
  | 0, l => l
  | n + 1, l => if (2 : Rat) ^ l < x then log2Loop x n (l + 1) else l

/-- Lines 333-336 and 337-340 of lhd.cpp for one array; `k` is `-delta`. -/
def stretch (R : Rounding) (k : Nat) (h : Nat → Rat) : Nat → Rat :=
  (List.range (maxAge - 1)).reverse.foldl (fun h a => set h a (R.rnd (h (a / 2 ^ k) / 2 ^ k)))
    ((List.range' (maxAge / 2 ^ k) (maxAge - 1 - maxAge / 2 ^ k)).foldl
      (fun h a => set h (maxAge - 1) (R.rnd (h (maxAge - 1) + h a))) h)

/-- Lines 345-352 and 353-356 of lhd.cpp for one array; `k` is `delta`. -/
def compress (R : Rounding) (k : Nat) (h : Nat → Rat) : Nat → Rat :=
  (List.range' (maxAge / 2 ^ k) (maxAge - 1 - maxAge / 2 ^ k)).foldl (fun h a => set h a 0)
    ((List.range (maxAge / 2 ^ k)).foldl
      (fun h a => (List.range' 1 (2 ^ k - 1)).foldl (fun h i => set h a (R.rnd (h a + h (a * 2 ^ k + i)))) (set h a (h (a * 2 ^ k)))) h)

/-- Lines 330-358 of lhd.cpp for one class. -/
def rescale (R : Rounding) (delta : Int) (c : Class) : Class :=
  if delta < 0 then { c with hits := stretch R delta.natAbs c.hits, evictions := stretch R delta.natAbs c.evictions }
  else if delta > 0 then { c with hits := compress R delta.natAbs c.hits, evictions := compress R delta.natAbs c.evictions }
  else c

/-- the new `ageCoarseningShift`, lhd.cpp:306-319 -/
def newShift (R : Rounding) (objects mass : Rat) : Nat :=
  log2Loop (R.rnd (R.rnd (objects / mass) / R.rnd (R.rnd (1 / 100) * maxAge))) 30 1

/-- `adaptAgeCoarsening`, lhd.cpp:299-367 -/
def adaptAgeCoarsening (R : Rounding) (s : State) : State :=
  let e := R.rnd (R.rnd (s.ewmaNumObjects * decay R) + s.sizeMap.length)
  let m := R.rnd (R.rnd (s.ewmaNumObjectsMass * decay R) + 1)
  if s.numReconfigurations = 5 ∨ s.numReconfigurations = 25 then
    { s with
      ewmaNumObjects := R.rnd (e * 8), ewmaNumObjectsMass := R.rnd (m * 8), shift := newShift R e m
      classes := fun c => rescale R ((newShift R e m : Int) - s.shift) (s.classes c) }
  else { s with ewmaNumObjects := e, ewmaNumObjectsMass := m }

/-- `reconfigure`, lhd.cpp:166-197 -/
def reconfigure (R : Rounding) (s : State) : State :=
  let s1 := adaptAgeCoarsening R { s with classes := fun c => updateClass R (s.classes c) }
  { s1 with classes := fun c => modelClass R (s1.classes c) }

/-! ### Class LHD -/

/-- Lines 131-137 of lhd.cpp: count the access, and reconfigure from time to time. -/
def tick (R : Rounding) (s : State) : State :=
  if s.nextReconfiguration - 1 = 0 then
    let s1 := reconfigure R { s with timestamp := s.timestamp + 1, nextReconfiguration := s.nextReconfiguration - 1 }
    { s1 with nextReconfiguration := accsPerReconfiguration, numReconfigurations := s1.numReconfigurations + 1 }
  else { s with timestamp := s.timestamp + 1, nextReconfiguration := s.nextReconfiguration - 1 }

/-- `explore`, lhd.cpp:117: one in 32 accesses, at random -/
def explore (s : State) : Bool := s.picks.headD 0 % exploreInverse == 0

/-- The object becomes an explorer, lhd.cpp:118. -/
def explorer (s : State) : Bool := explore s && decide (s.budget > 0) && decide (s.numReconfigurations < 50)

/-- Lines 111-113, 119 and 122 of lhd.cpp: the fields written at every access. -/
def stamp (R : Rounding) (s : State) (size : Nat) (t : Tag) : Tag :=
  { t with timestamp := s.timestamp, app := 1 % appClasses, size := R.rnd size, explorer := explorer s }

/-- Lines 111-137 of lhd.cpp, the common end of `update`; `t` is the object's tag, at position `i`. -/
def touchTag (R : Rounding) (s : State) (i : Nat) (t : Tag) (insert : Bool) (size : Nat) : Res State :=
  density R s (stamp R s size t) >>= fun d =>
  .ok (tick R
    { s with
      tags := s.tags.set i (stamp R s size t)
      picks := s.picks.tail
      budget := if explorer s then toInt (R.rnd (R.rnd s.budget - R.rnd size)) else s.budget
      recent := if insert && !explore s && below d s.ewmaVictim then s.recent.set (s.recentHead % admissions) (some t.id) else s.recent
      recentHead := if insert && !explore s && below d s.ewmaVictim then s.recentHead + 1 else s.recentHead })

/-- one more event in a class -/
def addHit (R : Rounding) (c : Class) (a : Nat) : Class := { c with hits := set c.hits a (R.rnd (c.hits a + 1)) }

/-- one more eviction in a class -/
def addEviction (R : Rounding) (c : Class) (a : Nat) : Class := { c with evictions := set c.evictions a (R.rnd (c.evictions a + 1)) }

/-- `explorerBudget += tag->size` for an explorer, lhd.cpp:103-105 and 152-154 -/
def giveBack (R : Rounding) (s : State) (t : Tag) : Int := if t.explorer then toInt (R.rnd (R.rnd s.budget + t.size)) else s.budget

/-- `LHD::update`, lhd.cpp:83-138 -/
def update (R : Rounding) (s : State) (id : ObjId) (size : Nat) : Res State :=
  match s.indices id with
  | none =>
    touchTag R
      { s with tags := s.tags ++ [{ lastLastHitAge := maxAge, lastHitAge := 0, id := id }], indices := set s.indices id (some s.tags.length) }
      s.tags.length { lastLastHitAge := maxAge, lastHitAge := 0, id := id } true size
  | some i =>
    match s.tags[i]? with
    | none => .error .outOfBounds
    | some t =>
      if t.id ≠ id then .error .assertFail
      else if classId t ≥ numClasses then .error .outOfBounds
      else
        touchTag R
          { s with classes := set s.classes (classId t) (addHit R (s.classes (classId t)) (age s t)), budget := giveBack R s t }
          i { t with lastLastHitAge := t.lastHitAge, lastHitAge := age s t } false size

/-- Overwrite a vector element with the last one, drop the last one, and correct the index of the moved one: lhd.cpp:157-163 and
LHD_Interface.cpp:312-318. -/
def swapRemove (s : State) (id : ObjId) (i : Nat) : Res State :=
  match s.tags.getLast? with
  | none => .error .outOfBounds
  | some l =>
    if i < s.tags.length then
      .ok { s with
        tags := (s.tags.set i l).dropLast
        indices :=
          if i < s.tags.length - 1 then set (set s.indices id none) l.id (some i)
          else set s.indices id none }
    else .error .outOfBounds

/-- `LHD::replaced`, lhd.cpp:140-164 -/
def replaced (R : Rounding) (s : State) (id : ObjId) : Res State :=
  match s.indices id with
  | none => .error .assertFail
  | some i =>
    match s.tags[i]? with
    | none => .error .outOfBounds
    | some t =>
      if t.id ≠ id then .error .assertFail
      else if classId t ≥ numClasses then .error .outOfBounds
      else
        swapRemove
          { s with classes := set s.classes (classId t) (addEviction R (s.classes (classId t)) (age s t)), budget := giveBack R s t } id i

/-- The first loop of `LHD::rank`, lhd.cpp:47-56: `n` tags drawn at random; `v` and `vr` are `victim` and `victimRank`. -/
def sampleLoop (R : Rounding) (s : State) : Nat → List Nat → Option Nat → Rat → Res (Option Nat × Rat × List Nat)
  | 0, picks, v, vr => .ok (v, vr, picks)
  | n + 1, picks, v, vr =>
    if s.tags.length = 0 then .error .divZero
    else
      match s.tags[picks.headD 0 % s.tags.length]? with
      | none => .error .outOfBounds
      | some t =>
        density R s t >>= fun d =>
        if below d vr then sampleLoop R s n picks.tail (some (picks.headD 0 % s.tags.length)) (d.getD 0)
        else sampleLoop R s n picks.tail v vr

/-- The second loop of `LHD::rank`, lhd.cpp:58-73, over the recently admitted objects. -/
def recentLoop (R : Rounding) (s : State) : List (Option ObjId) → Option Nat → Rat → Res (Option Nat × Rat)
  | [], v, vr => .ok (v, vr)
  | none :: l, v, vr => recentLoop R s l v vr
  | some id :: l, v, vr =>
    match s.indices id with
    | none => recentLoop R s l v vr
    | some i =>
      match s.tags[i]? with
      | none => .error .outOfBounds
      | some t =>
        if t.id ≠ id then .error .assertFail
        else
          density R s t >>= fun d =>
          if below d vr then recentLoop R s l (some i) (d.getD 0) else recentLoop R s l v vr

/-- `candidates`, lhd.cpp:45 -/
def candidates (s : State) : Nat := if s.numReconfigurations > 50 then associativity else 8

/-- `LHD::rank`, lhd.cpp:35-81 -/
def rank (R : Rounding) (s : State) : Res (ObjId × State) :=
  sampleLoop R s (candidates s) s.picks none fltMax >>= fun p =>
  recentLoop R s s.recent p.1 p.2.1 >>= fun q =>
  match q.1 with
  | none => .error .assertFail
  | some i =>
    match s.tags[i]? with
    | none => .error .outOfBounds
    | some t =>
      .ok (t.id, { s with
        picks := p.2.2
        ewmaVictim := R.rnd (R.rnd (decay R * s.ewmaVictim) + R.rnd (R.rnd (1 - decay R) * q.2)) })

/-! ### The cache -/

/-- `sizeMap.find(id)` -/
def lookup (s : State) (id : ObjId) : Option Nat := s.sizeMap.lookup id

/-- `LHD_find`, LHD_Interface.cpp:156-179.  A hit whose size differs from the stored one changes the stored size, a 32-bit number. -/
def find (R : Rounding) (s : State) (r : Req) (upd : Bool) : Res (Bool × State) :=
  match lookup s r.id with
  | none => .ok (false, s)
  | some z =>
    if upd then
      update R
        (if z ≠ r.size then
          { s with
            base := { s.base with occ := s.base.occ - (z : Int) + (r.size : Int) }
            sizeMap := s.sizeMap.map (fun x => if x.1 = r.id then (x.1, r.size % u32) else x) }
        else s) r.id r.size >>= fun s' => .ok (true, s')
    else .ok (true, s)

/-- `LHD_insert`, LHD_Interface.cpp:192-208 -/
def insert (R : Rounding) (s : State) (r : Req) : Res State :=
  update R { s with sizeMap := (r.id, r.size % u32) :: s.sizeMap.filter (fun x => x.1 ≠ r.id) } r.id r.size >>= fun s =>
  .ok { s with base := { s.base with occ := s.base.occ + ((r.size : Int) + (s.base.objMd : Int)), nObj := s.base.nObj + 1 } }

/-- `LHD_to_evict`, LHD_Interface.cpp:221-237 -/
def toEvict (R : Rounding) (s : State) : Res (ObjId × State) :=
  rank R s >>= fun p =>
  match lookup p.2 p.1 with
  | none => .error .assertFail
  | some _ => .ok (p.1, { p.2 with cand := some p.1, candVt := s.base.nReq })

/-- Lines 267-268, 282 and 308-310 of LHD_Interface.cpp.  As in `cache_remove_obj_base`, the sum of the sizes is a 32-bit number. -/
def forget (s : State) (id : ObjId) (z : Nat) : State :=
  { s with
    base := { s.base with occ := s.base.occ - (((z + s.base.objMd) % u32 : Nat) : Int), nObj := s.base.nObj - 1 }
    sizeMap := s.sizeMap.filter (fun x => x.1 ≠ id) }

/-- Lines 260-282 of LHD_Interface.cpp: evict the given object. -/
def evictThis (R : Rounding) (s : State) (id : ObjId) : Res State :=
  match lookup s id with
  | none => .error .assertFail
  | some z => replaced R (forget s id z) id

/-- `LHD_evict`, LHD_Interface.cpp:248-283 -/
def evict (R : Rounding) (s : State) : Res State :=
  if s.candVt = s.base.nReq then
    match s.cand with
    | none => .error .assertFail
    | some id => evictThis R { s with candVt := -1 } id
  else rank R s >>= fun p => evictThis R p.2 p.1

/-- `LHD_remove`, LHD_Interface.cpp:298-321 (`indices[id]` of a missing key would be 0) -/
def remove (s : State) (id : ObjId) : Res (Bool × State) :=
  match lookup s id with
  | none => .ok (false, s)
  | some z => swapRemove (forget s id z) id ((s.indices id).getD 0) >>= fun s' => .ok (true, s')

/-- The function table, LHD_Interface.cpp:66-76. -/
def algo (R : Rounding) : Algo State where
  find := find R
  insert := insert R
  evict := fun s _ => evict R s
  remove := remove
  canInsert := fun s r => ((s.base.canInsertDefault r).1, { s with base := (s.base.canInsertDefault r).2 })
  occ := fun s => s.base.occ
  nObj := fun s => s.base.nObj
  cacheSize := fun s => s.base.cacheSize
  md := fun s => s.base.objMd
  bump := fun s => { s with base := s.base.bump }
  fuel := fun s => s.sizeMap.length + 1

/-- `LHD_init`, LHD_Interface.cpp:56-101, and the constructor of class `LHD`, lhd.cpp:10-33; `picks` are the random numbers to come. -/
def init (R : Rounding) (cacheSize md : Nat) (adm : Adm) (picks : List Nat) : State :=
  { base := Base.init cacheSize md adm
    sizeMap := [], tags := [], indices := fun _ => none
    classes := fun c => { hits := fun _ => 0, evictions := fun _ => 0, dens := fun a => R.rnd (((c + 1 : Nat) : Rat) / ((a + 1 : Nat) : Rat)) }
    timestamp := 0, nextReconfiguration := accsPerReconfiguration, numReconfigurations := 0, shift := 10
    ewmaNumObjects := 0, ewmaNumObjectsMass := 0
    recent := List.replicate admissions none, recentHead := 0, ewmaVictim := 0
    budget := toInt (R.rnd (R.rnd cacheSize * R.rnd (1 / 100)))
    picks, cand := none, candVt := -1 }

end Verif.LHD
