/-
Specification of perspective transforms, in exact arithmetic.
-/
import Mathlib.Algebra.BigOperators.Group.Finset.Basic
import Mathlib.Algebra.Order.Field.Rat
import Verif.Model.Perspective

namespace FlatCV.Spec
open FlatCV.Model

/-- `v` solves the eight equations `A v = b`. -/
def Solves (A : Nat → Nat → ℚ) (b v : Nat → ℚ) : Prop :=
  ∀ i, i < 8 → ∑ j ∈ Finset.range 8, A i j * v j = b i

/-- The homography `m` sends `(x, y)` to the finite point `(u, v)`. -/
def SendsTo (m : Mat ℚ) (x y u v : ℚ) : Prop :=
  m.m20 * x + m.m21 * y + m.m22 ≠ 0 ∧
  (m.m00 * x + m.m01 * y + m.m02) / (m.m20 * x + m.m21 * y + m.m22) = u ∧
  (m.m10 * x + m.m11 * y + m.m12) / (m.m20 * x + m.m21 * y + m.m22) = v

/-- Twice the signed area of the triangle with corners `i`, `j`, `k`. -/
def area (c : Corners ℚ) (i j k : Nat) : ℚ :=
  (c.x j - c.x i) * (c.y k - c.y i) - (c.y j - c.y i) * (c.x k - c.x i)

/-- No three of the four corners lie on a line. -/
def Proper (c : Corners ℚ) : Prop :=
  area c 0 1 2 ≠ 0 ∧ area c 0 1 3 ≠ 0 ∧ area c 0 2 3 ≠ 0 ∧ area c 1 2 3 ≠ 0

end FlatCV.Spec
