import Verif.Base.Types
/-!
# Splitting a trace by tenant (libCacheSim/bin/dep/cpp/traceSplit.cpp)

The input is a list of whole records; the maps are functions; the progress messages are left out.
-/

namespace Verif.TraceSplit
open Verif

/-- the fields of an input record that are used -/
structure Rec where
  ts : Nat
  id : Nat
  size : Nat
  tenant : Nat
deriving DecidableEq, Repr

/-- `struct trace_req`, common.h:8-14, without the operation, which is not used -/
structure TReq where
  ts : Nat
  id : Nat
  sz : Nat
  ns : Nat
deriving DecidableEq, Repr

/-- what is written for a request: time, object, size -/
structure Out where
  ts : Nat
  id : Nat
  sz : Nat
deriving DecidableEq, Repr

/-- `read_oracleCF1_trace`, traceSplit.cpp:26-63: the size has 64 bits, the tenant 32 -/
def readCF1 (r : Rec) : TReq := ⟨r.ts, r.id, if r.size > u32 - 1 then u32 - 1 else r.size % u32, r.tenant⟩

/-- `read_oracleAkamai_trace`, traceSplit.cpp:65-103: the tenant has 16 bits and is read into the lower half of a field of 32 bits. The upper half, `junk`, is never written. -/
def readAkamai (junk : Nat) (r : Rec) : TReq := ⟨r.ts, r.id, r.size, junk * 65536 + r.tenant⟩

/-- `trace_start_ts`, `buffer_map`, `ofs_map` with the contents of the files -/
structure St where
  start : Nat := u32 - 1
  buf : Nat → List TReq := fun _ => []
  files : Nat → Option (List Out) := fun _ => none

/-- the three calls of `write`, traceSplit.cpp:186-188, 198-200 -/
def out (q : TReq) : Out := ⟨q.ts, q.id, q.sz⟩

/-- the body of the loop of `main`, traceSplit.cpp:144-192; `B` is `BUFFER_SIZE` -/
def step (B : Nat) (st : St) (q : TReq) : St :=
  let start := if st.start = u32 - 1 then q.ts else st.start
  let q := { q with ts := (q.ts + u32 - start) % u32 }
  let b := st.buf q.ns ++ [q]
  if b.length ≥ B then
    { start := start
      buf := fun n => if n = q.ns then [] else st.buf n
      files := fun n => if n = q.ns then some ((st.files n).getD [] ++ b.map out) else st.files n }
  else { st with start := start, buf := fun n => if n = q.ns then b else st.buf n }

/-- the last loop of `main`, traceSplit.cpp:194-204: what is left in the buffers goes to the files there are -/
def flush (st : St) (n : Nat) : Option (List Out) := (st.files n).map (· ++ (st.buf n).map out)

/-- `main`, traceSplit.cpp:105-212: the file of each tenant -/
def split (B : Nat) (qs : List TReq) : Nat → Option (List Out) := flush (qs.foldl (step B) {})

end Verif.TraceSplit
