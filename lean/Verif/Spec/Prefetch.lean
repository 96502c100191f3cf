import Verif.Spec.Cache
/-!
# Specification of prefetching
-/

namespace Verif.Spec.Prefetch
open Verif Verif.Spec

/-- The last `k` ids of `past` are the `k` ids before `id`, in order. -/
def Sequential (k : Nat) (past : List ObjId) (id : ObjId) : Prop :=
  k ≤ id ∧ ∃ pre, past = pre ++ (List.range k).map (fun i => id - k + i)

/-- Contents `c` become `c'` by prefetching the object `x`: nothing happens if it is cached; otherwise it is added after evictions, as few as make `need` bytes free. -/
def Fetched (cs md need : Nat) (c : Contents) (x : ObjId × Nat) (c' : Contents) : Prop :=
  (x.1 ∈ c.ids ∧ c' = c) ∨
  (x.1 ∉ c.ids ∧ ∃ victims kept, c.Perm (victims ++ kept) ∧ c'.Perm (x :: kept) ∧
    ∀ vs v, victims = vs ++ [v] → bytes md (v :: kept) + need > cs)

/-- The counters are the true ones, the cache is within its size, and no object is there twice. -/
def Consistent {σ : Type} (A : Algo σ) (cached : σ → Contents) (cs md : Nat) (s : σ) : Prop :=
  A.occ s ≤ (cs : Int) ∧ A.occ s = (bytes md (cached s) : Nat) ∧ A.nObj s = ((cached s).length : Nat) ∧ (cached s).ids.Nodup

/-- The objects of a list are prefetched one after the other. -/
def FetchedAll (cs md : Nat) : Contents → List (ObjId × Nat) → Contents → Prop
  | c, [], c' => c' = c
  | c, x :: xs, c' => ∃ c1, Fetched cs md (x.2 + md) c x c1 ∧ FetchedAll cs md c1 xs c'

/-- For each request with `n` successors: its id and those of the `n` successors. -/
def windows (n : Nat) : List ObjId → List (ObjId × List ObjId)
  | [] => []
  | a :: l => if n ≤ l.length then (a, l.take n) :: windows n l else []

/-- how often `b` was requested within `n` requests after `a` -/
def followed (n : Nat) (past : List ObjId) (a b : ObjId) : Nat := (((windows n past).filter (fun w => w.1 = a)).map (fun w => w.2.count b)).sum

/-- the number of requests within `n` requests after a request for `a` -/
def following (n : Nat) (past : List ObjId) (a : ObjId) : Nat := (((windows n past).filter (fun w => w.1 = a)).map (fun w => w.2.length)).sum

/-- the size in the last request for an object -/
def lastSize (past : List Req) (id : ObjId) : Option Nat := (past.reverse.find? (fun r => r.id = id)).map Req.size

end Verif.Spec.Prefetch
