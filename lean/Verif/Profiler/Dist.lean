import Verif.Base.Types
import Verif.Data.Splay
/-!
# Reuse and stack distances, libCacheSim/profiler/dist.c, and the LRU profiler, libCacheSim/profiler/profilerLRU.c

A trace is the list of the object ids the reader delivers.  The `GHashTable` is a function from ids to pointers, as numbers:
`NULL` is 0 (`GSIZE_TO_POINTER(0)` is `NULL`, so a stored time 0 looks like an absent entry).
-/

namespace Verif.Dist
open Verif.Splay

/-- conversion to `int32_t` -/
def i32 (x : Int) : Int := (x + 2 ^ 31) % 2 ^ 32 - 2 ^ 31

/-- the hash table -/
abbrev Table := ObjId → Nat

/-- `g_hash_table_insert` -/
def Table.put (tbl : Table) (id : ObjId) (v : Nat) : Table := fun y => if y = id then v else tbl y

inductive DistType where
  | sinceLastAccess
  | sinceFirstAccess
deriving DecidableEq, Repr

/-- `get_access_dist_add_req`, dist.c:33-57 -/
def accessAdd (ty : DistType) (tbl : Table) (id : ObjId) (ts : Nat) : Int × Table :=
  let gp := tbl id
  let ret : Int := if gp = 0 then -1 else (ts : Int) - gp
  match ty with
  | .sinceLastAccess => (ret, tbl.put id ts)
  | .sinceFirstAccess => (ret, tbl)

/-- the loop of `get_access_dist`, dist.c:160-192, from `curr_ts` on; entry `curr_ts` of the array is the next element of the list -/
def accessLoop (ty : DistType) : Table → Nat → List ObjId → Res (List Int)
  | _, _, [] => .ok []
  | tbl, ts, id :: tr =>
    let r := accessAdd ty tbl id ts
    if r.1 > 2 ^ 32 - 1 then .error .abort
    else accessLoop ty r.2 (ts + 1) tr >>= fun l => .ok (i32 r.1 :: l)

/-- `get_access_dist`, dist.c:160-192 -/
def getAccessDist (ty : DistType) (tr : List ObjId) : Res (List Int) := accessLoop ty (fun _ => 0) 0 tr

/-- splay tree and hash table -/
structure St where
  tree : Tree
  tbl : Table

/-- what `get_stack_dist_add_req` returns and writes -/
structure Add where
  dist : Int
  last : Int
  st : St

/-- `newtree->right` -/
def rightOf : Tree → Res Tree
  | .nil => .error .nullDeref
  | .node _ _ _ r => .ok r

/-- `get_stack_dist_add_req`, dist.c:72-104 -/
def stackAdd (s : St) (id : ObjId) (ts : Nat) : Res Add :=
  let gp := s.tbl id
  if gp = 0 then .ok ⟨-1, -1, ⟨Splay.insert ts s.tree, s.tbl.put id ts⟩⟩
  else
    let t1 := Splay.splay gp s.tree
    rightOf t1 >>= fun r =>
    .ok ⟨nodeValue r, gp, ⟨Splay.insert ts (Splay.delete gp t1), s.tbl.put id ts⟩⟩

def St.init : St := ⟨.nil, fun _ => 0⟩

/-- `get_stack_dist`, dist.c:111-158, type `STACK_DIST`: the loop; entry `curr_ts` of the array is the next element of the list -/
def stackLoop : St → Nat → List ObjId → Res (List Int)
  | _, _, [] => .ok []
  | s, ts, id :: tr =>
    stackAdd s id ts >>= fun r =>
    if r.dist > 2 ^ 32 - 1 then .error .abort
    else stackLoop r.st (ts + 1) tr >>= fun l => .ok (i32 r.dist :: l)

/-- `get_stack_dist(reader, STACK_DIST, …)`, dist.c:111-158 -/
def getStackDist (tr : List ObjId) : Res (List Int) := stackLoop .init 0 tr

/-- `get_stack_dist`, type `FUTURE_STACK_DIST`: the loop over the array `arr` -/
def futureLoop : St → Nat → (Nat → Int) → List ObjId → Res (Nat → Int)
  | _, _, arr, [] => .ok arr
  | s, ts, arr, id :: tr =>
    stackAdd s id ts >>= fun r =>
    if r.dist > 2 ^ 32 - 1 then .error .abort
    else futureLoop r.st (ts + 1) (if r.last ≠ -1 then fun i => if (i : Int) = r.last then i32 r.dist else arr i else arr) tr

/-- `get_stack_dist(reader, FUTURE_STACK_DIST, …)`, dist.c:111-158: the array, all entries `-1` at first (117-121) -/
def getFutureStackDist (tr : List ObjId) : Res (Nat → Int) := futureLoop .init 0 (fun _ => -1) tr

/-- `_get_lru_hit_cnt`, profilerLRU.c:57-96: the first loop, filling `hit_count_array` -/
def hitLoop (size : Nat) : St → Nat → (Nat → Nat) → List ObjId → Res (Nat → Nat)
  | _, _, arr, [] => .ok arr
  | s, ts, arr, id :: tr =>
    stackAdd s id ts >>= fun r =>
    let arr' : Nat → Nat :=
      if r.dist = -1 then arr
      else if r.dist + 1 ≤ size then fun i => if (i : Int) = r.dist + 1 then arr i + 1 else arr i
      else arr
    hitLoop size r.st (ts + 1) arr' tr

/-- the second loop, 84-88: `for (i = 1; i < size + 1; i++) a[i] = a[i] + a[i - 1]`, over the given indices -/
def accumulate : List Nat → (Nat → Nat) → (Nat → Nat)
  | [], arr => arr
  | i :: is, arr => accumulate is (fun j => if j = i then arr i + arr (i - 1) else arr j)

/-- `_get_lru_hit_cnt`, profilerLRU.c:57-96 -/
def lruHitCnt (size : Nat) (tr : List ObjId) : Res (Nat → Nat) :=
  hitLoop size .init 0 (fun _ => 0) tr >>= fun arr => .ok (accumulate (List.range' 1 size) arr)

/-- `_get_lru_miss_cnt`, profilerLRU.c:41-48 (`guint64` subtraction: 2^64 wrap-around) -/
def lruMissCnt (size : Nat) (tr : List ObjId) : Res (Nat → Nat) :=
  lruHitCnt size tr >>= fun h => .ok (fun i => if i ≤ size then (tr.length + 2 ^ 64 - h i) % 2 ^ 64 else 0)

end Verif.Dist
