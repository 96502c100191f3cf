import Verif.Base.Types
/-!
# The generator of oracle traces (libCacheSim/bin/dep/oracleTraceGen/oracleReuseTraceGen.h)

The generator reads a trace from its end, writes a temporary file with the request of the same object seen last, and then reverses that file.
Files are lists of records; hash maps are functions; what is only printed (bytes, numbers of skipped requests, of missing times to live) is left out.
-/

namespace Verif.OracleGen
open Verif

/-- how a record stores the size of the object: key and value sizes apart, a 32-bit field, a 32-bit field that saturates, a 64-bit field -/
inductive SizeField
  | keyVal | u32 | u32sat | u64
deriving DecidableEq, Repr

/-- what distinguishes the record types -/
structure Format where
  /-- `typeid(T) == typeid(struct reqEntryReuseRealSystemTwrNS)` -/
  twr : Bool
  /-- `get_ttl` and `set_ttl` use a field -/
  hasTtl : Bool
  field : SizeField
deriving DecidableEq, Repr

/-- `reqEntryReuseRealSystemTwrNS`, oracleReuseTraceGen.h:27-69 -/
def twrNS : Format := ⟨true, true, .keyVal⟩
/-- `reqEntryReuseCF1`, oracleReuseTraceGen.h:72-123 -/
def cf1 : Format := ⟨false, true, .u64⟩
/-- `reqEntryReuseAkamai`, `reqEntryReuseWiki16u`, `reqEntryReuseWiki19u`, oracleReuseTraceGen.h:125-233 -/
def akamai : Format := ⟨false, false, .u32⟩
/-- `reqEntryReuseGeneral`, oracleReuseTraceGen.h:235-272 -/
def general : Format := ⟨false, false, .u32sat⟩
/-- `reqEntryReuseGeneralOpNS`, oracleReuseTraceGen.h:274-313 -/
def generalOpNS : Format := ⟨false, false, .u32⟩

/-- A request as the reader delivers it. `val` is `val_size`. Time, key and value sizes and time to live are taken to fit their fields. -/
structure Rq where
  time : Nat
  id : ObjId
  size : Nat
  val : Nat := 0
  op : Nat := 1
  ttl : Int := 0
deriving DecidableEq, Repr

/-- A record. Formats without some of the fields do not write them. -/
structure Ent where
  time : Nat
  id : ObjId
  size : Nat
  val : Nat
  op : Nat
  ttl : Int
  next : Int
deriving DecidableEq, Repr

/-- `init(request_t *)` of the record types, oracleReuseTraceGen.h:61-69, 109-123, 156-163, 193-197, 228-233, 263-271, 306-312 -/
def init (f : Format) (r : Rq) : Ent :=
  { time := r.time, id := r.id, val := r.val, op := r.op, next := 0
    ttl := if f.hasTtl then r.ttl else 0
    size := match f.field with
      | .keyVal => r.size
      | .u32 => r.size % u32
      | .u32sat => if r.size ≥ u32 - 1 then u32 - 1 else r.size
      | .u64 => r.size }

/-- `is_size_zero`, oracleReuseTraceGen.h:45-47, 94-96, 141-143, 181-183, 213-215, 248-250, 290-292; `OP_GET` is 1 and `OP_GETS` 2 -/
def isSizeZero (f : Format) (e : Ent) : Bool :=
  if f.twr then e.val = 0 && (e.op = 1 || e.op = 2) else e.size = 0

/-- `is_op_write_or_delete` of the Twitter records, oracleReuseTraceGen.h:48-51: set, cas, replace, append, prepend, delete -/
def isWrite (op : Nat) : Bool := op = 3 || (5 ≤ op && op ≤ 9)

/-- `gen_miss_fill_vec`, oracleReuseTraceGen.h:482-518, from the request number `n` (the first request is number 1) on;
`OP_SET`, `OP_ADD`, `OP_CAS`, `OP_REPLACE` are 3 to 6. The bit of the request is set at its number, not at its position. -/
def missFill : Nat → (ObjId → Option Int) → List Bool → List Rq → Res (List Bool)
  | _, _, bits, [] => .ok bits
  | n, miss, bits, r :: rs =>
    let miss := if r.val = 0 && (r.op = 1 || r.op = 2) then fun i => if i = r.id then some (r.time : Int) else miss i else miss
    if 3 ≤ r.op && r.op ≤ 6 then
      match miss r.id with
      | some t =>
        if (r.time : Int) - t ≤ 1 then
          if n < bits.length then missFill (n + 1) miss (bits.set n true) rs else .error .outOfBounds
        else missFill (n + 1) miss bits rs
      | none => missFill (n + 1) miss bits rs
    else missFill (n + 1) miss bits rs

/-- the state of the backward pass: `n_req_written`, `n_req_curr`, `last_access` (time and ttl), the temporary file -/
structure St where
  n : Nat := 0
  cur : Nat := 0
  last : ObjId → Option (Int × Int) := fun _ => none
  temp : List Ent := []

/-- One round of the loop of `run`, oracleReuseTraceGen.h:385-427, for the request `req` from which `re` was filled. The operation of a fill is changed in `req`,
which is not used any more. -/
def body (f : Format) (backfill : Bool) (bits : List Bool) (total : Nat) (r : Rq) (st : St) : Res St :=
  let re := init f r
  (if f.twr then
    match bits[total - st.cur - 1]? with
    | none => .error .outOfBounds
    | some b => .ok (if b then { r with op := 1 } else r)
  else .ok r) >>= fun req =>
  let prev := st.last re.id
  let filled : Int × Int :=
    if backfill then
      if re.ttl ≠ 0 then (re.ttl, re.ttl)
      else match prev with
        | some p => (if f.hasTtl then p.2 else re.ttl, p.2)
        | none => (re.ttl, 0)
    else (re.ttl, 0)
  let next : Int := match prev with
    | none => -1
    | some p => p.1
  let vtime : Int := if f.twr && isWrite re.op then -1 else st.n
  .ok { st with
    n := st.n + 1
    last := fun i => if i = req.id then some (vtime, filled.2) else st.last i
    temp := st.temp ++ [{ re with ttl := filled.1, next := next }] }

/-- The loop of `run`, oracleReuseTraceGen.h:435-449, over the requests above the current one, in the order in which they are read; the assertion is at line 452. -/
def reads (f : Format) (backfill : Bool) (bits : List Bool) (total : Nat) : List Rq → St → Res St
  | [], st => if st.cur + 1 = total then .ok st else .error .assertFail
  | r :: above, st =>
    let st := { st with cur := st.cur + 1 }
    if isSizeZero f (init f r) then reads f backfill bits total above st
    else body f backfill bits total r st >>= reads f backfill bits total above

/-- a size as the `int` that `get_obj_size` returns, oracleReuseTraceGen.h:39-41, 88-90, ... -/
def asInt (n : Nat) : Int := if n % u32 < 2147483648 then (n % u32 : Nat) else ((n % u32 : Nat) : Int) - (u32 : Nat)

/-- `set_obj_size(int)` of the record types, oracleReuseTraceGen.h:42-44, 91-93, 138-140, 175-177, 210-212, 245-247, 287-289 -/
def setSize (f : Format) (e : Ent) (z : Int) : Ent :=
  match f.field with
  | .keyVal => e
  | .u64 => { e with size := (z % 18446744073709551616).toNat }
  | _ => { e with size := (z % (u32 : Nat)).toNat }

/-- The loop of `_reverse_file`, oracleReuseTraceGen.h:581-616, over the records of the temporary file from its end; the map is `last_obj_size` -/
def rewrite (f : Format) (total : Nat) (removeSizeChange : Bool) : (ObjId → Option Nat) → List Ent → List Ent
  | _, [] => []
  | sizes, e :: es =>
    let e1 := if e.next ≠ -1 then { e with next := (total : Int) - 1 - e.next } else e
    if removeSizeChange then
      match sizes e1.id with
      | some z => setSize f e1 (asInt z) :: rewrite f total removeSizeChange sizes es
      | none => e1 :: rewrite f total removeSizeChange (fun i => if i = e1.id then some (asInt e1.size % (u32 : Nat)).toNat else sizes i) es
    else e1 :: rewrite f total removeSizeChange sizes es

/-- `OracleReuseTraceGen::run`, oracleReuseTraceGen.h:345-471: the records of the output file. With an empty trace the first record is filled from a request that was never read. -/
def run (f : Format) (backfill removeSizeChange : Bool) (trace : List Rq) : Res (List Ent) :=
  (if f.twr then missFill 1 (fun _ => none) (List.replicate trace.length false) trace else .ok []) >>= fun bits =>
  match trace.reverse with
  | [] => .error .uninit
  | r :: above =>
    body f backfill bits trace.length r {} >>= fun st =>
    reads f backfill bits trace.length above st >>= fun st =>
    .ok (rewrite f st.n removeSizeChange (fun _ => none) st.temp.reverse)

end Verif.OracleGen
