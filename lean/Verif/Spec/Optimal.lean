import Verif.Base.Types
import Mathlib.Data.Finset.Card
/-!
# Demand paging: what any cache could do on a trace of equally large objects

`Play k c trace h`: starting with the objects `c`, some way of running a cache with room for `k` objects over `trace` gives `h` hits.
The player sees the whole trace; it may drop anything at any time, but it brings in only the requested object, and it must hold it
after a miss.
-/

namespace Verif.Spec
open Verif

inductive Play (k : Nat) : Finset ObjId → List ObjId → Nat → Prop
  | done (c) : Play k c [] 0
  | hit {c c' : Finset ObjId} {x trace h} : x ∈ c → c' ⊆ c → Play k c' trace h → Play k c (x :: trace) (h + 1)
  | miss {c c' : Finset ObjId} {x trace h} : x ∉ c → c' ⊆ insert x c → x ∈ c' → c'.card ≤ k → Play k c' trace h → Play k c (x :: trace) h

/-- When `x` is requested next, if the requests from position `t` on are `trace` and position `i` has time `vt i`; `INT64_MAX` if never. -/
def nextUse (vt : Nat → Int) : Nat → List ObjId → ObjId → Int
  | _, [], _ => int64Max
  | t, y :: trace, x => if y = x then vt t else nextUse vt (t + 1) trace x

/-- Each request carries the time of the next request for the same object. -/
def Annotated (vt : Nat → Int) : Nat → List Req → Prop
  | _, [] => True
  | t, r :: rs => r.next = nextUse vt (t + 1) (rs.map Req.id) r.id ∧ Annotated vt (t + 1) rs

end Verif.Spec
