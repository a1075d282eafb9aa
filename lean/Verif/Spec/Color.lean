/-
Hexadecimal colours.
-/
import Verif.Spec.Image

namespace FlatCV.Spec

/-- The digit characters in order of value, lower and upper case. -/
def lowerDigits : List Char := "0123456789abcdef".toList
def upperDigits : List Char := "0123456789ABCDEF".toList

/-- `c` is a digit of value `v`. -/
def Digit (c : Char) (v : Nat) : Prop := lowerDigits[v]? = some c ∨ upperDigits[v]? = some c

/-- `s` is the six-digit spelling of the colour `(r, g, b)`, in any mixture of cases. -/
def Spells (s : List Char) (r g b : UInt8) : Prop :=
  ∃ c0 c1 c2 c3 c4 c5, s = [c0, c1, c2, c3, c4, c5] ∧
    Digit c0 (r.toNat / 16) ∧ Digit c1 (r.toNat % 16) ∧
    Digit c2 (g.toNat / 16) ∧ Digit c3 (g.toNat % 16) ∧
    Digit c4 (b.toNat / 16) ∧ Digit c5 (b.toNat % 16)

end FlatCV.Spec
