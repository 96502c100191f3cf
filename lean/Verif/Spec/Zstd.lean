import Verif.Reader.Zstd
import Verif.Spec.Reader
/-!
# What the zstd library promises (zstd.h, section "Streaming decompression")
-/

namespace Verif.Spec.Zstd
open Verif Verif.Reader.Zstd

/-- The decoder `C` decompresses the file `comp` to `data`. -/
structure Decodes (C : Codec) (comp data : List Nat) where
  /-- the states after `k` bytes have been taken in and `m` bytes put out -/
  At : C.σ → Nat → Nat → Prop
  /-- how many bytes can be put out once `k` bytes have been taken in -/
  ready : Nat → Nat
  init : At C.init 0 0
  /-- bytes are taken from the start of the input, and the next bytes of the data are put out, as many as fit -/
  step : ∀ s k m inp room, At s k m → inp <+: comp.drop k → (C.step s inp room).2.1 ≤ inp.length ∧ (C.step s inp room).2.2.length ≤ room ∧
    (C.step s inp room).2.2 <+: data.drop m ∧ At (C.step s inp room).1 (k + (C.step s inp room).2.1) (m + (C.step s inp room).2.2.length)
  /-- if there is room left in the output, nothing is waiting inside the decoder -/
  flush : ∀ s k m inp room, At s k m → inp <+: comp.drop k → (C.step s inp room).2.2.length < room → ready (k + (C.step s inp room).2.1) ≤ m + (C.step s inp room).2.2.length
  /-- with input and room there is progress -/
  progress : ∀ s k m inp room, At s k m → inp <+: comp.drop k → inp ≠ [] → 0 < room → 0 < (C.step s inp room).2.1 + (C.step s inp room).2.2.length
  /-- the whole file gives all the data -/
  all : data.length ≤ ready comp.length
  /-- after the end of the data the decoder is ready for the next frame -/
  again : ∀ s, At s comp.length data.length → At s 0 0

/-- the decoder never waits with output until it is called again without input -/
def Decodes.Prompt {C : Codec} {comp data : List Nat} (D : Decodes C comp data) : Prop := ∀ s m, D.At s comp.length m → m = data.length

end Verif.Spec.Zstd

namespace Verif.Spec.Zstd
open Verif Verif.Reader

/-- the formats whose readers can read compressed files: all but the two vscsi formats, which come last -/
def formats : List Spec.Reader.TraceFormat := Spec.Reader.formats.take 18

/-- what reading to the end delivers, seen through the members `obs` -/
def seen {C : Zstd.Codec} (hash : Nat → Nat) (lim : Nat) (obs : List Fld) (zr : Zstd.ZReader C) : Res (List (List Int)) :=
  Zstd.readAll hash lim lim zr newRequest >>= fun r => .ok (r.1.map (fun q => obs.map q.vals))

end Verif.Spec.Zstd
