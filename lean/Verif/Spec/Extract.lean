/-
What document extraction should compute.
-/
import Verif.Spec.Warp
import Verif.Spec.Detect
import Verif.Model.Extract

namespace FlatCV.Spec
open FlatCV FlatCV.Model

/-- `pow(x, 2)` of the C library: the square up to rounding. -/
def PowOk (pow2 : Dbl → Dbl) : Prop :=
  ∀ x : ℚ, |x| ≤ 2 ^ 32 → ∃ p : ℚ, pow2 (.fin x) = .fin p ∧ 0 ≤ p ∧ |p - x ^ 2| ≤ x ^ 2 / 2 ^ 50 + 1 / 2 ^ 100

/-- The square of the distance of two points. -/
def SquareDist (ax ay bx b_y : Dbl) (s : ℚ) : Prop :=
  ∃ p q p' q' : ℚ, ax = .fin p ∧ ay = .fin q ∧ bx = .fin p' ∧ b_y = .fin q' ∧ s = (p - p') ^ 2 + (q - q') ^ 2

/-- `n` is a length with the square `s`, rounded to an integer (in the middle between two either one), but at least 100. -/
structure RoundedLength (s : ℚ) (n : Nat) : Prop where
  least : 100 ≤ n
  up : s ≤ ((n : ℚ) + 1 / 2 + 1 / 1000) ^ 2
  down : 100 < n → ((n : ℚ) - 1 / 2 - 1 / 1000) ^ 2 ≤ s

/-- The size chosen for a document with the corners `k`: of two opposite sides the longer one. -/
def DocumentSize (k : Corners Dbl) (W H : Nat) : Prop :=
  ∃ top bottom left right, SquareDist k.tl_x k.tl_y k.tr_x k.tr_y top ∧ SquareDist k.bl_x k.bl_y k.br_x k.br_y bottom ∧
    SquareDist k.tl_x k.tl_y k.bl_x k.bl_y left ∧ SquareDist k.tr_x k.tr_y k.br_x k.br_y right ∧
    RoundedLength (max top bottom) W ∧ RoundedLength (max left right) H

/-- The corners of an upright rectangle of `ow` by `oh` pixels: the centres of its corner pixels. -/
def upright (ow oh : Nat) : Corners Dbl :=
  ⟨.fin 0, .fin 0, .fin ((ow : ℚ) - 1), .fin 0, .fin ((ow : ℚ) - 1), .fin ((oh : ℚ) - 1), .fin 0, .fin ((oh : ℚ) - 1)⟩

/-- `m` is the transformation that the library computes between two quadrilaterals. -/
def Transform (src dst : Corners Dbl) (m : Mat Dbl) : Prop :=
  ∃ hp h' t, fcv_calculate_perspective_transform Arith.dbl (some src) (some dst) hp = .ok (t, h') ∧
    (t = .static ∧ m = Mat.identity Arith.dbl ∨ ∃ id, t = .heap id m)

end FlatCV.Spec
