/-
Distinct colours of an RGBA image.
-/
import Verif.Spec.Image
import Mathlib.Data.Finset.Image
import Mathlib.Data.Finset.Card

namespace FlatCV.Spec

/-- The RGB value of pixel `i`. -/
def rgb (d : List UInt8) (i : Nat) : UInt8 × UInt8 × UInt8 := (px1 4 d i 0, px1 4 d i 1, px1 4 d i 2)

/-- The colours of the first `n` pixels that are not fully transparent. -/
def colours (n : Nat) (d : List UInt8) : Finset (UInt8 × UInt8 × UInt8) :=
  ((Finset.range n).filter fun i => px1 4 d i 3 ≠ 0).image (rgb d)

end FlatCV.Spec
