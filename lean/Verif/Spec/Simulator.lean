import Verif.Profiler.Simulator
/-!
# What a simulation should report

Written without reference to the simulator's loops: serve all requests in order, split the trace into a warm-up part and a
measured part, and count.
-/

namespace Verif.Spec.Sim
open Verif Verif.Simulator

variable {σ : Type}

/-- the answers of the cache to a list of requests, with the random seed and the state afterwards -/
def serve (C : Cache σ) : Nat → σ → List Item → Res (List Bool × Nat × σ)
  | seed, s, [] => .ok ([], seed, s)
  | seed, s, it :: its =>
    C.get seed s it.req >>= fun r => serve C r.2.1 r.2.2 its >>= fun q => .ok (r.1 :: q.1, q.2)

/-- total size of the requests -/
def sizes (its : List Item) : Nat := (its.map (fun it => it.req.size)).sum

/-- the requests that were answered with a miss -/
def missed (its : List Item) (answers : List Bool) : List Item :=
  ((its.zip answers).filter (fun x => x.2 = false)).map Prod.fst

/-- time of the first request -/
def startOf (tr : List Item) : Int := match tr with | [] => 0 | it :: _ => it.time

/-- the `i`-th request (from 0) belongs to the warm-up by number or by time -/
def Warms (p : Params) (start : Int) (i : Nat) (it : Item) : Prop := i < p.nWarmup ∨ it.time - start < p.sec

/-- `tr` is split into the warm-up part `w` and the measured part `m`: the warm-up ends with the first request that is neither
among the first `nWarmup` nor within `sec` seconds of the start; without warm-up settings nothing is warm-up -/
structure Split (p : Params) (tr w m : List Item) : Prop where
  whole : tr = w ++ m
  warms : ∀ i it, w[i]? = some it → Warms p (startOf tr) i it
  stop : (p.nWarmup > 0 ∨ p.sec > 0) → ∀ it, m.head? = some it → ¬ Warms p (startOf tr) w.length it
  off : ¬ (p.nWarmup > 0 ∨ p.sec > 0) → w = []

/-- time from the first to the last request of the trace (an empty trace leaves the time of the last warm-up request) -/
def elapsed (warm tr : List Item) : Int :=
  match tr.getLast? with
  | some it => it.time - startOf tr
  | none => match warm.getLast? with | some it => it.time | none => 0

/-- the report of a simulation with warm-up trace `warm`, trace `w ++ m` of which `w` is the warm-up part, where the cache gave
`answers` to the requests of `m` and ended in state `s` -/
def report (C : Cache σ) (warm w m : List Item) (answers : List Bool) (s : σ) : Stat :=
  { nWarmup := warm.length + w.length
    nReq := m.length
    reqByte := sizes m
    nMiss := (missed m answers).length
    missByte := sizes (missed m answers)
    rtime := elapsed warm (w ++ m)
    nObj := C.nObj s
    occ := C.occ s }

/-- the task, run alone, ends with the report `st` and the cache `s` -/
def Reports (C : Cache σ) (p : Params) (j : Job σ) (st : Stat) (s : σ) : Prop :=
  ∃ k seed j', alone C p j k = .ok (seed, j') ∧ j'.pc = .done ∧ j'.stat = st ∧ j'.cache = s

end Verif.Spec.Sim
