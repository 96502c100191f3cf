import Verif.Algo.Queue
/-!
# libCacheSim/cache/eviction/LRUProb.c

`LRU_Prob_init` allocates its parameters with `malloc` and never sets `q_head` and `q_tail`; `junk` says that the memory was not zero.
The results of `next_rand()` are a parameter: `picks` holds the values of the successive calls.  `threshold` is the `int` computed in
`LRU_Prob_init` (line 84) from the floating point parameter `prob`: 1/prob rounded down.
-/

namespace Verif.LRUProb
open Verif

/-- `LRU_Prob_params_t`, LRUProb.c:20-26, next to the `cache_t` part. -/
structure State where
  base : Base Unit
  q : List ObjId
  junk : Bool
  threshold : Nat
  picks : List Nat
deriving DecidableEq, Repr

def State.qs (s : State) : QState Unit := ⟨s.base, s.q⟩

/-- Following `q_head` or `q_tail`. -/
def heads {α : Type} (s : State) (x : Res α) : Res α := if s.junk then .error .uninit else x

/-- `LRU_Prob_find`, LRUProb.c:135-150. -/
def find (s : State) (r : Req) (update : Bool) : Res (Bool × State) :=
  match s.base.findBase r update with
  | (none, b) => .ok (false, { s with base := b })
  | (some _, b) =>
    if update then
      if s.threshold = 0 then .error .divZero
      else if s.picks.headD 0 % s.threshold = 0 then
        heads s (qMoveToHead s.q r.id >>= fun q' =>
          .ok (true, { s with base := b.modify r.id (fun o => { o with miscFreq := o.miscFreq + 1, miscNext := r.next }), q := q', picks := s.picks.tail }))
      else .ok (true, { s with base := b.modify r.id (fun o => { o with miscFreq := o.miscFreq + 1, miscNext := r.next }), picks := s.picks.tail })
    else .ok (true, { s with base := b })

/-- `LRU_Prob_insert`, LRUProb.c:163-169. -/
def insert (s : State) (r : Req) : Res State :=
  heads s (s.qs.insert () r >>= fun x => .ok { s with base := x.base, q := x.q })

/-- `LRU_Prob_to_evict`, LRUProb.c:181-185. -/
def toEvict (s : State) : Option ObjId := s.q.getLast?

/-- `LRU_Prob_evict`, LRUProb.c:196-201. -/
def evict (s : State) : Res State :=
  heads s (s.qs.evictTail >>= fun x => .ok { s with base := x.base, q := x.q })

/-- `LRU_Prob_remove`, LRUProb.c:203-209, 224-233. -/
def remove (s : State) (id : ObjId) : Res (Bool × State) :=
  match s.base.lookup id with
  | none => .ok (false, s)
  | some _ => heads s (s.qs.remove id >>= fun p => .ok (p.1, { s with base := p.2.base, q := p.2.q }))

/-- The function table set up by `LRU_Prob_init`, LRUProb.c:60-67. -/
def algo : Algo State where
  find := find
  insert := insert
  evict := fun s _ => evict s
  remove := remove
  canInsert := fun s r => ((s.base.canInsertDefault r).1, { s with base := (s.base.canInsertDefault r).2 })
  occ := fun s => s.base.occ
  nObj := fun s => s.base.nObj
  cacheSize := fun s => s.base.cacheSize
  md := fun s => s.base.objMd
  bump := fun s => { s with base := s.base.bump }
  fuel := fun s => s.base.tbl.length

/-- `LRU_Prob_init`, LRUProb.c:57-89. -/
def init (cacheSize md : Nat) (adm : Adm) (junk : Bool) (threshold : Nat) (picks : List Nat) : State :=
  { base := Base.init cacheSize md adm, q := [], junk := junk, threshold := threshold, picks := picks }

end Verif.LRUProb
