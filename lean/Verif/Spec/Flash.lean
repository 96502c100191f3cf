import Verif.Spec.Cache
/-!
# A RAM cache in front of a disk cache, as its users understand it

Specification only.  The RAM is the list of its objects (object, size), most recent first; the disk cache is described by what a get and an evict
call do to it.  Of every `n` objects that leave the RAM one is written to the disk, on average: an object is written if the next random number is a
multiple of `n`.
-/

namespace Verif.Spec.Flash
open Verif Spec

/-- A hit in the RAM: with LRU the object becomes the most recent one, with FIFO the order stays. -/
def hit (lru : Bool) (id : ObjId) (ram : Contents) : Contents :=
  if lru then ram.filter (fun x => x.1 = id) ++ ram.filter (fun x => x.1 ≠ id) else ram

/-- RAM, disk and the random numbers to come. -/
structure View (δ : Type) where
  ram : Contents
  disk : δ
  rand : List Nat

/-- One eviction.  `write d x d'`: the disk cache in state `d` is asked for the missing object `x` and ends up in state `d'`; `drop d d'`: it evicts. -/
inductive Evicts {δ : Type} (n : Nat) (write : δ → ObjId × Nat → δ → Prop) (drop : δ → δ → Prop) : View δ → View δ → Prop
  /-- the least recent object leaves the RAM and is written to the disk -/
  | written {ram : Contents} {x : ObjId × Nat} {d d' : δ} {ps : List Nat} : 0 < bytes 0 (ram ++ [x]) → ps.headD 0 % n = 0 → write d x d' →
      Evicts n write drop ⟨ram ++ [x], d, ps⟩ ⟨ram, d', ps.tail⟩
  /-- the least recent object leaves the RAM and the cache -/
  | lost {ram : Contents} {x : ObjId × Nat} {d : δ} {ps : List Nat} : 0 < bytes 0 (ram ++ [x]) → ps.headD 0 % n ≠ 0 →
      Evicts n write drop ⟨ram ++ [x], d, ps⟩ ⟨ram, d, ps.tail⟩
  /-- no bytes in the RAM: the disk cache evicts -/
  | disk {ram : Contents} {d d' : δ} {ps : List Nat} : bytes 0 ram = 0 → drop d d' → Evicts n write drop ⟨ram, d, ps⟩ ⟨ram, d', ps⟩

/-- A number of evictions, each of them while the cache (`used` bytes) has no room for `size` more bytes within `cs`, until it has. -/
inductive Drains {δ : Type} (n : Nat) (write : δ → ObjId × Nat → δ → Prop) (drop : δ → δ → Prop) (used : View δ → Nat) (size cs : Nat) :
    View δ → View δ → Prop
  | done {v : View δ} : used v + size ≤ cs → Drains n write drop used size cs v v
  | more {v v' v'' : View δ} : cs < used v + size → Evicts n write drop v v' → Drains n write drop used size cs v' v'' →
      Drains n write drop used size cs v v''

end Verif.Spec.Flash
