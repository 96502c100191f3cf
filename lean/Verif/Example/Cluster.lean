import Verif.Base.CacheBase
import Verif.Base.Contract
import Verif.Example.ConsistentHash
/-!
# The cache cluster example

`example/cacheCluster`: servers with several caches each, behind the consistent hash ring. All caches of a cluster run the same algorithm (as in main.cpp:41-63), given by `A` and `mk`, which makes
an empty cache of a given size. The move constructor of `Cache` clones an empty cache (cache.hpp:30-33); since caches are added to a server before it is used, that is the empty cache again.
-/

namespace Verif.Cluster
open Verif Verif.CHash

variable {σ : Type}

/-- Cache (cache.hpp:20-67): an algorithm's state and the size it was made with. -/
structure Box (σ : Type) where
  size : Nat
  c : σ

/-- CacheServer (cacheServer.hpp:28-101). -/
structure Server (σ : Type) where
  caches : List (Box σ)
  up : Bool

/-- CacheCluster (cacheCluster.hpp:25-169). The weights are natural numbers. -/
structure Cluster (σ : Type) where
  servers : List (Server σ)
  weights : List Nat
  ring : Option Ring

/-- A cluster without servers (cacheCluster.hpp:50-54). -/
def empty : Cluster σ := ⟨[], [], none⟩

/-- A new server with caches of the given sizes (cacheServer.hpp:39, 66-71; main.cpp:57-62). -/
def newServer (mk : Nat → σ) (sizes : List Nat) : Server σ := ⟨sizes.map fun n => ⟨n, mk n⟩, true⟩

/-- The loop of CacheServer::get (cacheServer.hpp:76-83): ask the caches in turn until one has the object. -/
def getFrom (A : Algo σ) (r : Req) : List (Box σ) → Res (Bool × List (Box σ))
  | [] => .ok (false, [])
  | b :: bs => do
    let (hit, c) ← A.get b.c r
    if hit then .ok (true, { b with c := c } :: bs)
    else do
      let (h, bs') ← getFrom A r bs
      .ok (h, { b with c := c } :: bs')

/-- CacheServer::get (cacheServer.hpp:73-84). -/
def Server.get (A : Algo σ) (s : Server σ) (r : Req) : Res (Bool × Server σ) :=
  if s.up then do
    let (h, bs) ← getFrom A r s.caches
    .ok (h, { s with caches := bs })
  else .ok (false, s)

/-- CacheCluster::get (cacheCluster.cpp:16-27). `at` throws on an index that is too large. -/
def Cluster.get (A : Algo σ) (md5 : Md5) (cl : Cluster σ) (r : Req) : Res (Bool × Cluster σ) :=
  match cl.ring with
  | none => .error .nullDeref
  | some ring => do
    let i ← serverOfId md5 ring r.id
    match cl.servers[i]? with
    | none => .error .abort
    | some s => do
      let (h, s') ← s.get A r
      .ok (h, { cl with servers := cl.servers.set i s' })

/-- add_server (cacheCluster.hpp:67-89). -/
def Cluster.add (md5 : Md5) (qs : Qsort) (cl : Cluster σ) (s : Server σ) (w : Nat) : Res (Nat × Cluster σ) := do
  let weights := cl.weights ++ [w]
  let ring ← create md5 qs (digests (.inr weights))
  .ok (cl.servers.length, { servers := cl.servers ++ [s], weights := weights, ring := some ring })

/-- remove_server (cacheCluster.hpp:98-121): false, that is 0, if there is no such server; else the number of servers left, less one, as a 64-bit number. -/
def Cluster.remove (md5 : Md5) (qs : Qsort) (cl : Cluster σ) (i : Nat) : Res (Nat × Cluster σ) :=
  if cl.servers.length ≤ i then .ok (0, cl)
  else do
    let weights := cl.weights.eraseIdx i
    let ring ← create md5 qs (digests (.inr weights))
    .ok ((cl.servers.length - 1 + 2 ^ 64 - 1) % 2 ^ 64, { servers := cl.servers.eraseIdx i, weights := weights, ring := some ring })

/-- fail_one_server and recover_one_server (cacheCluster.hpp:136-152). -/
def Cluster.setUp (cl : Cluster σ) (i : Nat) (up : Bool) : Res (Bool × Cluster σ) :=
  match cl.servers[i]? with
  | none => .error .abort
  | some s => .ok (up, { cl with servers := cl.servers.set i { s with up := up } })

/-- A client's call. -/
inductive Call where
  | add (sizes : List Nat)
  | remove (i : Nat)
  | fail (i : Nat)
  | recover (i : Nat)
  | get (r : Req)

/-- One call; every server is added with the same weight `w`, by default 1.0 (cacheCluster.hpp:68). -/
def Cluster.step (A : Algo σ) (mk : Nat → σ) (md5 : Md5) (qs : Qsort) (w : Nat) (cl : Cluster σ) : Call → Res (Cluster σ)
  | .add sizes => Prod.snd <$> cl.add md5 qs (newServer mk sizes) w
  | .remove i => Prod.snd <$> cl.remove md5 qs i
  | .fail i => Prod.snd <$> cl.setUp i false
  | .recover i => Prod.snd <$> cl.setUp i true
  | .get r => Prod.snd <$> cl.get A md5 r

/-- A sequence of calls. -/
def Cluster.run (A : Algo σ) (mk : Nat → σ) (md5 : Md5) (qs : Qsort) (w : Nat) (cl : Cluster σ) : List Call → Res (Cluster σ)
  | [] => .ok cl
  | c :: cs => do
    let cl' ← cl.step A mk md5 qs w c
    cl'.run A mk md5 qs w cs

end Verif.Cluster
