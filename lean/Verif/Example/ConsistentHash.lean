import Verif.Base.Res
import Verif.Spec.Ring
/-!
# The consistent hash ring of the cache cluster example

`example/cacheCluster/consistentHash.c`. MD5 (md5.c) is a parameter: any function from byte strings to sixteen bytes. `qsort` is a parameter too: any sorting function, since C does not say
in which order it leaves equal points.
-/

namespace Verif.CHash
open Verif Verif.Spec

/-- md5_digest (consistentHash.c:26-32): sixteen bytes for a byte string. -/
abbrev Md5 := List Nat → Fin 16 → Fin 256

/-- qsort with ch_ring_compare (consistentHash.c:18-24, 85): some sorted rearrangement. -/
structure Qsort where
  f : List Point → List Point
  perm : ∀ l, (f l).Perm l
  sorted : ∀ l, (f l).Pairwise fun v w => v.point ≤ w.point

/-- Four bytes of a digest as a number (consistentHash.c:74-77): `(d[3+4h] << 24) | (d[2+4h] << 16) | (d[1+4h] << 8) | d[4h]`. The shift of a byte above 127 into the sign bit is taken
to give the unsigned value, as every compiler does. -/
def word (d : Fin 16 → Fin 256) (h : Fin 4) : Nat :=
  (d ⟨3 + h * 4, by omega⟩ : Nat) * 2 ^ 24 + (d ⟨2 + h * 4, by omega⟩ : Nat) * 2 ^ 16 + (d ⟨1 + h * 4, by omega⟩ : Nat) * 2 ^ 8 + (d ⟨h * 4, by omega⟩ : Nat)

/-- ketama_hash (consistentHash.c:34-39). -/
def hash (md5 : Md5) (key : List Nat) : Nat := word (md5 key) 0

/-- The string `"%u-%u"` (consistentHash.c:65). -/
def label (i k : Nat) : List Nat := (toString i ++ "-" ++ toString k).toList.map Char.toNat

/-- N_VNODE_PER_SERVER (consistentHash.h:17). -/
def perServer : Nat := 160

/-- ring_t (consistentHash.h:24-28). `vnodes` has `none` where the memory from `malloc` has not been written. -/
structure Ring where
  nPoint : Nat
  nServer : Nat
  vnodes : List (Option Point)

/-- The points of server `i` (consistentHash.c:60-81): `ks` digests with four points each. -/
def serverPoints (md5 : Md5) (i ks : Nat) : List Point :=
  (List.range ks).flatMap fun k => (List.finRange 4).map fun h => ⟨word (md5 (label i k)) h, i⟩

/-- All points, in the order in which the loop writes them (consistentHash.c:53-82). -/
def points (md5 : Md5) (ks : List Nat) : List Point := (List.range ks.length).flatMap fun i => serverPoints md5 i (ks.getD i 0)

/-- The number of digests of each server (consistentHash.c:55-58): 40 without weights; with weights `floorf(weight[i] * n_server * 40)`. The weights the cluster passes are
`w_i / sum` (cacheCluster.hpp:72-79); the products are taken exactly here, not in floating point. -/
def digests : Nat ⊕ List Nat → List Nat
  | .inl n => List.replicate n (perServer / 4)
  | .inr ws => ws.map fun w => w * ws.length * (perServer / 4) / ws.sum

/-- ch_ring_create_ring (consistentHash.c:41-90): room for 160 points per server, whatever the weights; `cnt` of them are written and sorted. -/
def create (md5 : Md5) (qs : Qsort) (ks : List Nat) : Res Ring :=
  let pts := points md5 ks
  if pts.length ≤ ks.length * perServer then
    .ok ⟨ks.length * perServer, ks.length, (qs.f pts).map some ++ List.replicate (ks.length * perServer - pts.length) none⟩
  else .error .outOfBounds

/-- Reading `vnodes[i]`. -/
def Ring.vnode (r : Ring) (i : Nat) : Res Point :=
  match r.vnodes[i]? with
  | none => .error .outOfBounds
  | some none => .error .uninit
  | some (some v) => .ok v

/-- `midval1` (consistentHash.c:112): the point before, or 0. -/
def Ring.before (r : Ring) (mid : Nat) : Res Nat := if mid = 0 then .ok 0 else Point.point <$> r.vnode (mid - 1)

/-- The loop of ch_ring_get_vnode_idx (consistentHash.c:103-127). The model stops after as many rounds as there are points, and two. -/
def search (r : Ring) (h : Nat) : Nat → Int → Int → Res Nat
  | 0, _, _ => .error .diverge
  | n + 1, low, high =>
    let mid := ((low + high) / 2).toNat
    if mid = r.nPoint then .ok 0
    else do
      let v ← r.vnode mid
      let before ← r.before mid
      if h ≤ v.point ∧ before < h then .ok mid
      else if v.point < h then
        if (mid : Int) + 1 > high then .ok 0 else search r h n (mid + 1) high
      else
        if low > (mid : Int) - 1 then .ok 0 else search r h n low (mid - 1)

/-- ch_ring_get_vnode_idx (consistentHash.c:92-129). -/
def vnodeIdx (md5 : Md5) (r : Ring) (key : List Nat) : Res Nat := search r (hash md5 key) (r.nPoint + 2) 0 r.nPoint

/-- ch_ring_get_server (consistentHash.c:135-137). -/
def server (md5 : Md5) (r : Ring) (key : List Nat) : Res Nat := do
  let i ← vnodeIdx md5 r key
  let v ← r.vnode i
  .ok v.server

/-- The key that ch_ring_get_server_from_uint64 makes of an object id (consistentHash.c:141-143): its eight bytes, lowest first, the last one overwritten with zero; ketama_hash reads it up
to the first zero byte. -/
def idKey (id : Nat) : List Nat := ((List.range 7).map fun i => id / 256 ^ i % 256).takeWhile (· ≠ 0)

/-- ch_ring_get_server_from_uint64 (consistentHash.c:139-145). -/
def serverOfId (md5 : Md5) (r : Ring) (id : Nat) : Res Nat := server md5 r (idKey id)

/-- The loop of ch_ring_get_servers and ch_ring_get_available_servers (consistentHash.c:156-171, 185-210). `chosen` has one byte per server; `left` is `n - i`; the model stops when the C
program aborts. -/
def collect (r : Ring) (start : Nat) : Nat → Nat → List Bool → Nat → Res (List Nat)
  | _, _, _, 0 => .ok []
  | 0, _, _, _ + 1 => .error .diverge
  | f + 1, pos, chosen, left + 1 =>
    if r.nPoint = 0 then .error .divZero
    else do
      let v ← r.vnode ((start + pos) % r.nPoint)
      match chosen[v.server]? with
      | none => .error .outOfBounds
      | some c =>
        if c then
          if pos + 1 > r.nPoint then .error .abort else collect r start f (pos + 1) chosen (left + 1)
        else
          if pos + 1 > r.nPoint then .error .abort
          else do
            let rest ← collect r start f (pos + 1) (chosen.set v.server true) left
            .ok (v.server :: rest)

/-- ch_ring_get_servers (consistentHash.c:148-172). -/
def servers (md5 : Md5) (r : Ring) (key : List Nat) (n : Nat) : Res (List Nat) := do
  let i ← vnodeIdx md5 r key
  collect r i (r.nPoint + 2) 0 (List.replicate r.nServer false) n

/-- ch_ring_get_available_servers (consistentHash.c:174-211): `down` marks the servers that are not available. -/
def availableServers (md5 : Md5) (r : Ring) (key : List Nat) (n : Nat) (down : List Bool) : Res (List Nat) := do
  let i ← vnodeIdx md5 r key
  collect r i (r.nPoint + 2) 0 down n

end Verif.CHash
