import Verif.Tools.GroupReuse
/-!
# Comparing groups by time with random groups (libCacheSim/bin/customized/fast23/compareGrouping.cpp)

The random numbers are parameters. `drop_frac` is 0, as the comment in the code asks for; standard deviations, the output files and the threads are left out.
-/

namespace Verif.Grouping
open Verif Verif.GroupReuse

/-- the choice of a random group, compareGrouping.cpp:100-111: `rnd_idx_vec` and `rnd_idx_vec_idx`; `shuf` is what the shuffle makes of the vector. An index beyond the end of the vector is an exception. -/
def draw (g : Nat) (st : List Nat × Nat) (shuf : List Nat) : Res (List Nat × (List Nat × Nat)) :=
  let st1 := if st.2 + g ≥ st.1.length then (shuf, 0) else st
  if st1.2 + g ≤ st1.1.length then .ok ((st1.1.drop st1.2).take g, (st1.1, st1.2 + g)) else .error .abort

/-- the random groups of the repetitions, compareGrouping.cpp:74-126 -/
def draws (g : Nat) : List Nat × Nat → List (List Nat) → Res (List (List Nat))
  | _, [] => .ok []
  | st, sh :: shs => draw g st sh >>= fun p => draws g p.2 shs >>= fun l => .ok (p.1 :: l)

/-- the vector before the first repetition, compareGrouping.cpp:62-67 -/
def start (a b : Nat) : List Nat × Nat := (List.range' a (b - a), b - a)

/-- `cal_group_metric_task`, compareGrouping.cpp:44-48, 62-67, 74-126: the random groups; nothing if there are too few objects -/
def randomGroups (a b g : Nat) (shs : List (List Nat)) : Res (List (List Nat)) :=
  if a + g + shs.length ≥ b then .ok [] else draws g (start a b) shs

/-- the group by time that starts at `base`, compareGrouping.cpp:76-78 -/
def seqGroup (g base : Nat) : List Nat := (List.range g).map fun j => base + j

/-- mean time and mean number of reuses of a group by time, compareGrouping.cpp:77-95 -/
def seqMetric (stats : Nat → Stat) (grp : List Nat) : Rat × Rat :=
  (mean ((grp.filter fun i => (stats i).reuses > 0).map fun i => (stats i).mean), mean (grp.map fun i => ((stats i).reuses : Rat)))

/-- the same of a random group, compareGrouping.cpp:104-123 -/
def rndMetric (stats : Nat → Stat) (grp : List Nat) : Rat × Rat :=
  (mean ((grp.filter fun i => (stats i).mean ≠ 0).map fun i => (stats i).mean), mean (grp.map fun i => ((stats i).reuses : Rat)))

/-- the number of repetitions done when `n` are asked for, compareGrouping.cpp:178-194 -/
def repeats (g n threads : Nat) : Res Nat :=
  if g = 0 then .error .divZero
  else
    let batch := max (100000 / g) 20
    let nBatch := (n + batch - 1) / batch
    .ok (if threads = 1 then n else nBatch * batch)

end Verif.Grouping
