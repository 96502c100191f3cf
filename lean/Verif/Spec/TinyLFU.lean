import Verif.Spec.Cache
/-!
# What W-TinyLFU is supposed to do

The window is the list of its objects, most recently used first.  The main cache and the frequency sketch are given by what they do:
`used m` is the number of bytes in the main cache, `enters m x m'` that it takes the object `x`, `next m y` that `y` is the object it would evict, `drops m m'` that it evicts;
`freq k y f` that the sketch estimates the frequency of `y` as `f`, and `count k y k'` that it counts `y` once more.
-/

namespace Verif.Spec.TinyLFU
open Verif Verif.Spec

structure View (τ κ : Type) where
  win : Contents
  main : τ
  sk : κ

/-- How the two parts and the sketch behave. -/
structure Parts (τ κ : Type) where
  used : τ → Nat
  enters : τ → ObjId × Nat → τ → Prop
  next : τ → ObjId → Prop
  drops : τ → τ → Prop
  freq : κ → ObjId → Int → Prop
  count : κ → ObjId → κ → Prop

variable {τ κ : Type}

/-- One call of `evict`; `ms` is the size of the main cache.  As long as the window holds any bytes its least recently used object `x` is the candidate:
it moves to the main cache if there is room for it; otherwise it replaces the object the main cache would evict if its estimated frequency is larger; otherwise it is evicted, and that ends the call.
The candidate is counted in every case.  When the window holds no bytes, the main cache evicts. -/
inductive Evicts (ms : Nat) (P : Parts τ κ) : View τ κ → View τ κ → Prop
  | main {w m m' k} : bytes 0 w = 0 → P.drops m m' → Evicts ms P ⟨w, m, k⟩ ⟨w, m', k⟩
  | moved {w x m m' k k' v} : 0 < bytes 0 (w ++ [x]) → P.used m + x.2 ≤ ms → P.enters m x m' → P.count k x.1 k' →
      Evicts ms P ⟨w, m', k'⟩ v → Evicts ms P ⟨w ++ [x], m, k⟩ v
  | won {w x y a b m m' m'' k k' v} : 0 < bytes 0 (w ++ [x]) → ms < P.used m + x.2 → P.next m y → P.freq k x.1 a → P.freq k y b → b < a →
      P.drops m m' → P.enters m' x m'' → P.count k x.1 k' → Evicts ms P ⟨w, m'', k'⟩ v → Evicts ms P ⟨w ++ [x], m, k⟩ v
  | lost {w x y a b m k k'} : 0 < bytes 0 (w ++ [x]) → ms < P.used m + x.2 → P.next m y → P.freq k x.1 a → P.freq k y b → a ≤ b →
      P.count k x.1 k' → Evicts ms P ⟨w ++ [x], m, k⟩ ⟨w, m, k'⟩

/-- What a miss does before the insertion: evictions while an object of `size` bytes does not fit into the whole cache. -/
inductive Drains (ms : Nat) (P : Parts τ κ) (size cs : Nat) : View τ κ → View τ κ → Prop
  | done {v} : bytes 0 v.win + P.used v.main + size ≤ cs → Drains ms P size cs v v
  | more {v v' v''} : cs < bytes 0 v.win + P.used v.main + size → Evicts ms P v v' → Drains ms P size cs v' v'' → Drains ms P size cs v v''

/-- The window after a hit: the object moves to the front. -/
def touch (id : ObjId) (w : Contents) : Contents := w.filter (fun x => x.1 = id) ++ w.filter (fun x => x.1 ≠ id)

end Verif.Spec.TinyLFU
