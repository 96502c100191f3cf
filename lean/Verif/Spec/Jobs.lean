import Verif.Utils.ThreadPool
/-!
# What the users of a pool of threads see

The states a client can get a pool into, the jobs being executed, and the jobs of a list of calls.
-/

namespace Verif.ThreadPool

/-- The jobs being executed at this moment. -/
def executing : List Worker → List Nat
  | [] => []
  | .run j :: ws => j :: executing ws
  | _ :: ws => executing ws

/-- The jobs a client adds with these calls. -/
def jobs : List Call → List Nat
  | [] => []
  | .add j :: cs => j :: jobs cs
  | _ :: cs => jobs cs

/-- The calls the client has not begun yet. -/
def Client.rest : Client → List Call
  | .go p => p
  | .notifyOne p => p
  | .notifyAll p => p
  | .join p => p

/-- The jobs whose execution has begun, the earliest one first. -/
def Pool.begun (s : Pool) : List Nat := s.finished ++ executing s.workers

/-- The client is not inside a call. -/
def Client.outside : Client → Bool
  | .go _ => true
  | _ => false

/-- `s` is a state of a pool with `n` threads whose client makes these calls, after some schedule. -/
def Reaches (returns : Nat → Bool) (n : Nat) (calls : List Call) (s : Pool) : Prop := ∃ ms, exec returns (init n calls) ms = some s

/-- A schedule in which only workers move, and none of them wakes up by itself. -/
def OnlyWorkers (ms : List Move) : Prop := ∀ m ∈ ms, ∃ i, m = .worker i

end Verif.ThreadPool
