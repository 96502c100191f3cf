import Verif.Algo.LHD
import Verif.Spec.LHD
import Mathlib.Algebra.BigOperators.Group.List.Basic
/-!
# Vocabulary for LHD: what an eviction may choose from, and what it has to choose
-/

namespace Verif.LHD
open Verif Spec

/-- the age of an object: the accesses since its last one, in units of 2^shift accesses, at most 19999 -/
def objAge (s : State) (t : Tag) : Nat := min ((s.timestamp - t.timestamp) / 2 ^ s.shift) 19999

/-- The class (of 16) for the sum `a` of the last two ages at which an object was hit: how often it has to be doubled to reach 20000; class
15 if more than 15 times. -/
def ageClass (a : Nat) : Nat := ((List.range 15).find? (fun k => 20000 ≤ 2 ^ k * a)).getD 15

/-- the class of an object (all requests belong to application 1; the first 16 classes are those of application 0) -/
def objClass (t : Tag) : Nat := 16 + ageClass (t.lastHitAge + t.lastLastHitAge)

/-- The hit density of a cached object, the score by which victims are chosen: what its class's table says for its age, per byte; an
explorer gets 1 on top; an object of the largest age has the worst score there is. -/
def dens (R : Rounding) (s : State) (t : Tag) : Rat :=
  if objAge s t = 19999 then -fltMax
  else if t.explorer then R.rnd (R.rnd ((s.classes (objClass t)).dens (objAge s t) / t.size) + 1)
  else R.rnd ((s.classes (objClass t)).dens (objAge s t) / t.size)

/-- the tags that the random numbers select -/
def draws (tags : List Tag) (picks : List Nat) (n : Nat) : List Tag := (List.range n).filterMap (fun i => tags[picks.getD i 0 % tags.length]?)

/-- the tags of recently admitted objects that are still cached -/
def recents (s : State) : List Tag :=
  s.recent.filterMap (fun o => o.bind (fun id => (s.indices id).bind (fun i => s.tags[i]?)))

/-- the objects considered by an eviction: 8 drawn at random (32 after the 51st reconfiguration), and those admitted recently -/
def considered (s : State) : List Tag := draws s.tags s.picks (if s.numReconfigurations > 50 then 32 else 8) ++ recents s

/-- `t` is an object of lowest hit density among those considered. -/
def Worst (R : Rounding) (s : State) (t : Tag) : Prop := t ∈ s.tags ∧ t ∈ considered s ∧ ∀ x ∈ considered s, dens R s t ≤ dens R s x

/-- Objects evicted one after the other, each of lowest hit density among those considered at that time. -/
inductive Evictions (R : Rounding) : State → Contents → State → Prop
  | nil (s : State) : Evictions R s [] s
  | cons {s s1 s2 : State} {t : Tag} {z : Nat} {vs : Contents} : Worst R s t → (t.id, z) ∈ s.sizeMap → evict R s = .ok s1 →
      Evictions R s1 vs s2 → Evictions R s ((t.id, z) :: vs) s2

/-- the bytes of the explorers -/
def explorers (l : List Tag) : Rat := (l.map (fun t => if t.explorer then t.size else 0)).sum

/-- the budget that is left, and the bytes of the explorers -/
def balance (s : State) : Rat := s.budget + explorers s.tags

end Verif.LHD
