import Verif.Spec.Reader
/-!
# Format strings of binary traces

The letters are those of Python's `struct`: an upper case letter is an unsigned integer, the lower case one a signed integer of the
same width (documented in doc/quickstart_cachesim.md and traceReader/generalReader/binary.c).
-/

namespace Verif.Spec.BinFmt
open Verif Verif.Reader Verif.Spec.Reader

/-- width in bytes and signedness -/
def letter : Char → Option (Nat × Bool)
  | 'b' => some (1, true) | 'c' => some (1, true) | 'B' => some (1, false)
  | 'h' => some (2, true) | 'H' => some (2, false)
  | 'i' => some (4, true) | 'l' => some (4, true) | 'I' => some (4, false) | 'L' => some (4, false)
  | 'q' => some (8, true) | 'Q' => some (8, false)
  | _ => none

/-- the value can be written with the letter -/
def okLetter (c : Char) (v : Int) : Prop := ∃ w s, letter c = some (w, s) ∧ fits ⟨.id, w, s⟩ v

/-- a record: one value per letter -/
inductive Rec : List Char → List Int → List Nat → Prop
  | nil : Rec [] [] []
  | cons {c : Char} {v : Int} {w : Nat} {s : Bool} {cs : List Char} {vs : List Int} {bs : List Nat} :
      letter c = some (w, s) → fits ⟨.id, w, s⟩ v → Rec cs vs bs → Rec (c :: cs) (v :: vs) (fieldBytes ⟨.id, w, s⟩ v ++ bs)

/-- the value is in the signed half of its letter's range -/
def Half : List Char → List Int → Prop
  | c :: cs, v :: vs => (∀ w s, letter c = some (w, s) → v < 256 ^ w / 2) ∧ Half cs vs
  | _, _ => True

end Verif.Spec.BinFmt
