import Verif.Reader.Lcs
import Verif.Tools.TraceConv
/-!
# Writing the header of an lcs trace: `_reverse_file` with `use_lcs_format`, bin/traceUtils/traceConv.cpp:189-208
-/

namespace Verif.TraceConv
open Verif Verif.Reader

/-- The variable `lcs_header` lives on the stack and is not initialised: `g` are the 1024 bytes found there.  The members assigned are, in the order of the struct (lcs.h:15-56), `start_magic`, five
bytes of `format`, `obj_id_field`, `obj_size_field`, `time_field`, `next_access_vtime_field`, the four counters, `n_fields`, `item_size` and `end_magic`. -/
def lcsHeader (g : List Nat) (nReq nObj reqBytes objBytes : Nat) : List Nat :=
  store 8 Lcs.magic ++ (['<', 'I', 'Q', 'I', 'Q'].map Char.toNat ++ ((g.drop 13).take 235 ++ ([2, 3, 1] ++ ((g.drop 251).take 1 ++ ([4] ++ ((g.drop 253).take 235 ++ (store 8 nReq ++ (store 8 nObj ++
  (store 8 reqBytes ++ (store 8 objBytes ++ ((g.drop 520).take 480 ++ (store 4 4 ++ (store 4 24 ++ ((g.drop 1008).take 8 ++ store 8 Lcs.magic))))))))))))))

/-- the file: `verify_LCS_trace_header` (line 205), the header and the records -/
def writeLcs (g : List Nat) (nReq nObj reqBytes objBytes : Nat) (records : List Nat) : Res (List Nat) :=
  Lcs.readHeader (lcsHeader g nReq nObj reqBytes objBytes) 0 >>= fun h => Lcs.verify h >>= fun _ => .ok (lcsHeader g nReq nObj reqBytes objBytes ++ records)

end Verif.TraceConv
