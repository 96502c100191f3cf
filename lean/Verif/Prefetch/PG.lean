import Verif.Prefetch.Base
import Verif.Data.PQueue
import Mathlib.Order.Basic
import Mathlib.Order.Nat
/-!
# PG (probability graph): libCacheSim/cache/prefetch/PG.c

Keys of the GLib tables are object ids cast to `gint`, that is, their low 32 bits; sizes are below 2^31.  A `pq_node_t` is identified by its key within the table of its
`graphNode_t`; its `obj_id` is only used through the same cast.  The tables `prefetched` and the counters `num_of_hit` and `num_of_prefetch` are only written, and left out; with them
`PG_handle_evict` does nothing.
-/

namespace Verif.Prefetch.PG
open Verif

abbrev u64 : Nat := 18446744073709551616

/-- `GINT_TO_POINTER(id)` -/
def key (id : ObjId) : Nat := id % u32
/-- `GPOINTER_TO_INT(p)` assigned to an `obj_id_t`: sign extension -/
def unkey (k : Nat) : ObjId := if k < 2147483648 then k else k + (u64 - u32)

/-- `graphNode_t`, PG.h:64-68: `known` is the key set of `graph` -/
structure GNode where
  known : List Nat
  pq : PQueue.Q Nat
  total : Nat

/-- `PG_params_t`, PG.h:42-62 -/
structure State where
  look : Nat
  maxMeta : Nat
  /-- `(double) pri / total_count > prefetch_threshold` -/
  over : Nat → Nat → Bool
  graph : Nat → Option GNode
  past : Nat → ObjId
  ptr : Nat
  metaSize : Nat
  stop : Bool
  /-- `cache_size_map` -/
  sizes : Nat → Option Nat
  /-- whether the uninitialized `current_req_lbl[0]` happens to be nonzero in the next calls -/
  junk : List Bool

/-- `set_PG_params`, PG.c:84-102; `max_metadata_size` is the product of the block size, the cache size and a fraction. -/
def create (look maxMeta : Nat) (over : Nat → Nat → Bool) (junk : List Bool) : State :=
  { look, maxMeta, over, graph := fun _ => none, past := fun _ => 0, ptr := 0, metaSize := 0, stop := false, sizes := fun _ => none, junk }

/-- a new `graphNode_t`, PG.c:282-285; the nodes to come have priority and position 0 (`g_new0`) -/
def newNode : GNode := { known := [], pq := PQueue.init 2 (fun _ => 0) (fun _ => 0), total := 0 }

/-- The `for` loop of `_PG_add_to_graph`, PG.c:294-326, from position `i` on with `m` positions left: the node, the metadata size, and whether the function returned inside
the loop.  The priority of a known node is increased before `pqueue_change_priority` is called. -/
def arcs (stop : Bool) (past : Nat → ObjId) : Nat → Nat → GNode → Nat → Res (GNode × Nat × Bool)
  | 0, _, g, mt => .ok (g, mt, false)
  | m + 1, i, g, mt =>
    let g := { g with total := g.total + 1 }
    if past i = 0 then .ok (g, mt, false)
    else if key (past i) ∈ g.known then
      let p := g.pq.pri (key (past i)) + 1
      PQueue.changePriority (PQueue.setPri g.pq (key (past i)) p) p (key (past i)) >>= fun q => arcs stop past m (i + 1) { g with pq := q } mt
    else if stop then .ok (g, mt, true)
    else
      PQueue.insert (PQueue.setPri g.pq (key (past i)) 1) (key (past i)) >>= fun q =>
      arcs stop past m (i + 1) { g with pq := q, known := key (past i) :: g.known } (mt + 32)

/-- store a node -/
def setNode (f : Nat → Option GNode) (k : Nat) (g : GNode) : Nat → Option GNode := fun j => if j = k then some g else f j

/-- the end of `_PG_add_to_graph`, PG.c:294-330: the loop for the node `g` with key `k` and the check of the metadata size -/
def finish (s : State) (k : Nat) (g : GNode) (mt : Nat) : Res State :=
  arcs s.stop s.past s.look 0 g mt >>= fun x =>
  .ok { s with graph := setNode s.graph k x.1, metaSize := x.2.1, stop := if x.2.2 then s.stop else s.stop || decide (s.maxMeta ≤ x.2.1) }

/-- `_PG_add_to_graph`, PG.c:257-331 -/
def addToGraph (s : State) (r : Req) : Res State :=
  let current := s.past s.ptr
  let node := if current = 0 then none else s.graph (key current)
  let s1 := { s with past := fun j => if j = s.ptr then r.id else s.past j, ptr := (s.ptr + 1) % s.look, junk := s.junk.tail }
  if current = 0 ∧ s.junk.headD false = false then .ok s1
  else
    match node with
    | some g => finish s1 (key current) g s1.metaSize
    | none => if s1.stop then .ok s1 else finish s1 (key current) newNode (s1.metaSize + 32)

/-- `PG_handle_find`, PG.c:120-135 -/
def handleFind (s : State) (r : Req) : Res State :=
  addToGraph { s with sizes := fun k => if k = key r.id then some r.size else s.sizes k } r

/-- The `while` loop of `_PG_get_prefetch_list`, PG.c:351-364: the nodes over the threshold, last popped first. -/
def popOver (over : Nat → Nat → Bool) (total : Nat) : Nat → PQueue.Q Nat → List Nat → Res (List Nat × PQueue.Q Nat)
  | 0, _, _ => .error .diverge
  | m + 1, q, acc =>
    PQueue.pop q >>= fun x =>
    match x.1 with
    | none => .ok (acc, x.2)
    | some n => if over (x.2.pri n) total then popOver over total m x.2 (n :: acc) else .ok (acc, x.2)

/-- putting the nodes back, PG.c:366-372 -/
def putBack : List Nat → PQueue.Q Nat → Res (PQueue.Q Nat)
  | [], q => .ok q
  | n :: l, q => PQueue.insert q n >>= fun q => putBack l q

/-- `_PG_get_prefetch_list`, PG.c:341-376 -/
def prefetchList (s : State) (r : Req) : Res (List Nat × State) :=
  match s.graph (key r.id) with
  | none => .ok ([], s)
  | some g =>
    popOver s.over g.total g.pq.size g.pq [] >>= fun x =>
    putBack x.1 x.2 >>= fun q => .ok (x.1, { s with graph := setNode s.graph (key r.id) { g with pq := q } })

/-- The `while` loop of `PG_prefetch`, PG.c:166-182.  (A missing entry of `cache_size_map` gives NULL, that is, size 0.) -/
def fetchAll {σ : Type} (A : Algo σ) (f : State) (r : Req) : List Nat → σ → Res σ
  | [], s => .ok s
  | k :: l, s =>
    let q : Req := { id := unkey k, size := (f.sizes (key (unkey k))).getD 0, next := r.next }
    fetch A (q.size + A.md s) q q s >>= fun x => fetchAll A f r l x.2

/-- `PG_prefetch`, PG.c:157-187 -/
def prefetch {σ : Type} (A : Algo σ) (s : σ × State) (r : Req) : Res (σ × State) :=
  prefetchList s.2 r >>= fun x => fetchAll A x.2 r x.1 s.1 >>= fun c => .ok (c, x.2)

/-- the hooks set by `create_PG_prefetcher`, PG.c:225-231 -/
def hooks (σ : Type) : Prefetcher σ State := { handleFind := handleFind, prefetch := fun A s r => prefetch A s r }

end Verif.Prefetch.PG
