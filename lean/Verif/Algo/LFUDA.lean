import Verif.Algo.LFU
/-!
# libCacheSim/cache/eviction/LFUDA.c

The data structure is that of LFU.c (`LFU.State`): one list per count, `min_freq` and `max_freq`.  The 64-bit counts are natural numbers here,
they do not overflow before reaching 2^63.  The `DEBUG_ASSERT`s are not compiled in at the default log level (macro.h:100-107).
-/

namespace Verif.LFUDA
open Verif

abbrev State := LFU.State

/-- `update_min_freq`, LFUDA.c:346-357: the same loop as in LFU.c. -/
def updateMin (s : State) : State := LFU.updateMin s

/-- The part of `LFUDA_find` after the lookup, LFUDA.c:152-190, for an object whose count was `f`: it becomes `f + min_freq`.  If `min_freq` is 0
the old and the new list are the same. -/
def promote (s : State) (id : ObjId) (f : Nat) : Res State :=
  match s.nodes f with
  | none => .error .nullDeref
  | some old =>
    qRemove old.q id >>= fun oq =>
    let s1 := { s with
      maxFreq := if s.maxFreq < f + s.minFreq then f + s.minFreq else s.maxFreq
      nodes := LFU.setNode s.nodes f (some { n := old.n - 1, q := oq }) }
    let s2 := if s.minFreq = f ∧ old.n - 1 = 0 then updateMin s1 else s1
    let new : LFU.Node := (s2.nodes (f + s.minFreq)).getD {}
    qAppend new.q id >>= fun nq =>
    .ok { s2 with nodes := LFU.setNode s2.nodes (f + s.minFreq) (some { n := new.n + 1, q := nq }) }

/-- `LFUDA_find`, LFUDA.c:147-194. -/
def find (s : State) (r : Req) (update : Bool) : Res (Bool × State) :=
  match s.base.findBase r update with
  | (none, b) => .ok (false, { s with base := b })
  | (some o, b) =>
    if update then
      promote { s with base := b.modify r.id (fun o => { o with mt := o.mt + s.minFreq }) } r.id o.mt >>= fun s' => .ok (true, s')
    else .ok (true, { s with base := b })

/-- `LFUDA_insert`, LFUDA.c:207-227. -/
def insert (s : State) (r : Req) : Res State :=
  let nd : LFU.Node := (s.nodes (s.minFreq + 1)).getD {}
  qAppend nd.q r.id >>= fun q' =>
  .ok { s with base := s.base.insertBase (s.minFreq + 1) r, nodes := LFU.setNode s.nodes (s.minFreq + 1) (some { n := nd.n + 1, q := q' }) }

/-- the key of the node returned by `get_min_freq_node`, LFUDA.c:329-344 -/
def minKey (s : State) : Nat := if s.minFreq = 0 then 1 else s.minFreq

/-- `LFUDA_to_evict`, LFUDA.c:239-243. -/
def toEvict (s : State) : Res (Option ObjId) :=
  match s.nodes (minKey s) with
  | none => .error .nullDeref
  | some nd => .ok nd.q.head?

/-- `LFUDA_evict`, LFUDA.c:254-275.  `remove_obj_from_list` dereferences the object. -/
def evict (s : State) : Res State :=
  match s.nodes (minKey s) with
  | none => .error .nullDeref
  | some nd =>
    match nd.q with
    | [] => .error .nullDeref
    | id :: _ =>
      qRemove nd.q id >>= fun q' =>
      s.base.evictBase id >>= fun b' =>
      let s1 := { s with base := b', minFreq := minKey s, nodes := LFU.setNode s.nodes (minKey s) (some { n := nd.n - 1, q := q' }) }
      .ok (if nd.n - 1 = 0 then updateMin s1 else s1)

/-- `LFUDA_remove`, `LFUDA_remove_obj`, LFUDA.c:277-322. -/
def remove (s : State) (id : ObjId) : Res (Bool × State) :=
  match s.base.lookup id with
  | none => .ok (false, s)
  | some o =>
    match s.nodes o.mt with
    | none => .error .nullDeref
    | some nd =>
      qRemove nd.q id >>= fun q' =>
      s.base.removeObjBase id >>= fun b' =>
      let s1 := { s with base := b', nodes := LFU.setNode s.nodes o.mt (some { n := nd.n - 1, q := q' }) }
      .ok (true, if o.mt = s1.minFreq ∧ nd.n - 1 = 0 then updateMin s1 else s1)

/-- The function table, LFUDA.c:62-69. -/
def algo : Algo State where
  find := find
  insert := insert
  evict := fun s _ => evict s
  remove := remove
  canInsert := fun s r => ((s.base.canInsertDefault r).1, { s with base := (s.base.canInsertDefault r).2 })
  occ := fun s => s.base.occ
  nObj := fun s => s.base.nObj
  cacheSize := fun s => s.base.cacheSize
  md := fun s => s.base.objMd
  bump := fun s => { s with base := s.base.bump }
  fuel := fun s => s.base.tbl.length + 1

/-- `LFUDA_init`, LFUDA.c:59-95: node 1 exists from the start. -/
def init (cacheSize md : Nat) (adm : Adm) : State :=
  { base := Base.init cacheSize md adm, nodes := fun f => if f = 1 then some {} else none, minFreq := 0, maxFreq := 0 }

end Verif.LFUDA
