import Verif.Algo.Queue
/-!
# libCacheSim/cache/eviction/LFU.c
-/

namespace Verif.LFU
open Verif

/-- `freq_node_t` (include/libCacheSim/evictionAlgo.h, LFU.c:34-39): the counter `n_obj` and the list from `first_obj` to
`last_obj`.  The field `freq` equals the key under which the node is stored. -/
structure Node where
  n : Int := 0
  q : List ObjId := []
deriving DecidableEq, Repr

/-- `LFU_params_t`, LFU.c:34-39, next to the `cache_t` part; the union member of an object is `lfu.freq`.  `nodes` is the
GLib hash table `freq_map` (keys are compared as integers); `freq_one_node` is the pointer to the node with key 1, which
is never removed from the map. -/
structure State where
  base : Base Nat
  nodes : Nat → Option Node
  minFreq : Nat
  maxFreq : Nat

/-- writing a node into the map -/
def setNode (m : Nat → Option Node) (f : Nat) (x : Option Node) : Nat → Option Node :=
  fun g => if g = f then x else m g

/-- `update_min_freq`, LFU.c:367-378: the first key above `min_freq` and up to `max_freq` with a non-empty node; without one,
`min_freq` stays. -/
def updateMin (s : State) : State :=
  match (List.range' (s.minFreq + 1) (s.maxFreq - s.minFreq)).find? (fun f => match s.nodes f with
    | some nd => decide (nd.n > 0)
    | none => false) with
  | some f => { s with minFreq := f }
  | none => s

/-- The node-to-node move of `LFU_find`, LFU.c:172-217, for an object whose counter has become `f + 1`. -/
def promote (s : State) (id : ObjId) (f : Nat) : Res State :=
  match s.nodes f with
  | none => .error .nullDeref
  | some old =>
    qRemove old.q id >>= fun oq =>
    let old' : Node := { n := old.n - 1, q := oq }
    let new : Node := (s.nodes (f + 1)).getD {}
    qAppend new.q id >>= fun nq =>
    let s1 := { s with
      maxFreq := if s.maxFreq < f + 1 then f + 1 else s.maxFreq
      nodes := setNode (setNode s.nodes f (some old')) (f + 1) (some { n := new.n + 1, q := nq }) }
    if old'.n = 0 then
      let s2 := if s1.minFreq = f then updateMin s1 else s1
      .ok (if f ≠ 1 then { s2 with nodes := setNode s2.nodes f none } else s2)
    else .ok s1

/-- `LFU_find`, LFU.c:166-219. -/
def find (s : State) (r : Req) (update : Bool) : Res (Bool × State) :=
  match s.base.findBase r update with
  | (none, b) => .ok (false, { s with base := b })
  | (some o, b) =>
    if update then
      promote { s with base := b.modify r.id (fun o => { o with mt := o.mt + 1 }) } r.id o.mt >>= fun s' => .ok (true, s')
    else .ok (true, { s with base := b })

/-- `LFU_insert`, LFU.c:231-244. -/
def insert (s : State) (r : Req) : Res State :=
  match s.nodes 1 with
  | none => .error .useAfterFree
  | some nd =>
    qAppend nd.q r.id >>= fun q' =>
    .ok { s with base := s.base.insertBase 1 r, minFreq := 1,
                 nodes := setNode s.nodes 1 (some { n := nd.n + 1, q := q' }) }

/-- `get_min_freq_node`, LFU.c:347-365, up to the lookup: makes `min_freq` valid. -/
def fixMin (s : State) : State := if s.minFreq = 0 then updateMin s else s

/-- `LFU_to_evict`, LFU.c:256-260: dereferences the node returned by `get_min_freq_node`.  (`get_min_freq_node` may write
`min_freq`; see `fixMin`.) -/
def toEvict (s : State) : Option ObjId := ((fixMin s).nodes (fixMin s).minFreq).bind (fun nd => nd.q.head?)

/-- `LFU_evict`, LFU.c:270-292. -/
def evict (s0 : State) : Res State :=
  let s := fixMin s0
  match s.nodes s.minFreq with
  | none => .error .nullDeref
  | some nd =>
    match nd.q with
    | [] => .error .nullDeref
    | id :: _ =>
      qRemove nd.q id >>= fun q' =>
      s.base.evictBase id >>= fun b' =>
      .ok { s with base := b', nodes := setNode s.nodes s.minFreq (some { n := nd.n - 1, q := q' }),
                   minFreq := if nd.n - 1 = 0 then 0 else s.minFreq }

/-- `LFU_remove`, `LFU_remove_obj`, LFU.c:294-312, 328-337. -/
def remove (s : State) (id : ObjId) : Res (Bool × State) :=
  match s.base.lookup id with
  | none => .ok (false, s)
  | some o =>
    match s.nodes o.mt with
    | none => .error .nullDeref
    | some nd =>
      qRemove nd.q id >>= fun q' =>
      s.base.removeObjBase id >>= fun b' =>
      let s1 := { s with base := b', nodes := setNode s.nodes o.mt (some { n := nd.n - 1, q := q' }) }
      .ok (true, if o.mt = s1.minFreq ∧ nd.n - 1 = 0 then updateMin s1 else s1)

/-- `LFU_init`, LFU.c:72-112. -/
def algo : Algo State where
  find := find
  insert := insert
  evict := fun s _ => evict s
  remove := remove
  canInsert := fun s r => ((s.base.canInsertDefault r).1, { s with base := (s.base.canInsertDefault r).2 })
  occ := fun s => s.base.occ
  nObj := fun s => s.base.nObj
  cacheSize := fun s => s.base.cacheSize
  md := fun s => s.base.objMd
  bump := fun s => { s with base := s.base.bump }
  fuel := fun s => s.base.tbl.length

/-- `LFU_init`, LFU.c:90-109: node 1 exists from the start. -/
def init (cacheSize md : Nat) (adm : Adm) : State :=
  { base := Base.init cacheSize md adm, nodes := fun f => if f = 1 then some {} else none, minFreq := 1, maxFreq := 1 }

end Verif.LFU
