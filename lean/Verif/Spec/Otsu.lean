/-
Otsu's criterion in single precision.  Nothing here refers to the model.
-/
import Verif.Spec.Gray
import Verif.Core.Float

namespace FlatCV.Spec

/-- Rounding to single precision. -/
abbrev r32 (x : ℚ) : ℚ := Fmt.b32.rnd x

/-- Fraction of the `n` values `v` that equal `l`, in single precision. -/
def freq (n : Nat) (v : Nat → UInt8) (l : Nat) : ℚ :=
  r32 (r32 (countP n fun i => (v i).toNat == l) / r32 n)

/-- Sum of the first `k` terms, accumulated in single precision. -/
def sum32 (f : Nat → ℚ) : Nat → ℚ
  | 0 => 0
  | k + 1 => r32 (sum32 f k + f k)

/-- Weight of the levels up to `l`. -/
def weight (n : Nat) (v : Nat → UInt8) (l : Nat) : ℚ := sum32 (freq n v) (l + 1)

/-- First moment of the levels up to `l`. -/
def moment (n : Nat) (v : Nat → UInt8) (l : Nat) : ℚ :=
  sum32 (fun i => r32 (i * freq n v i)) (l + 1)

/-- Between-class variance of the split at level `l`. -/
def variance (n : Nat) (v : Nat → UInt8) (l : Nat) : ℚ :=
  let s := weight n v l
  let m1 := r32 (moment n v l / s)
  let m2 := r32 (r32 (moment n v 255 - moment n v l) / r32 (1 - s))
  r32 (r32 (r32 (s * r32 (1 - s)) * r32 (m1 - m2)) * r32 (m1 - m2))

/-- `t` is the smallest of the levels in `U` with the largest variance, if that is positive;
otherwise it is 0. -/
def FirstMax (n : Nat) (v : Nat → UInt8) (U : Nat → Prop) (t : Nat) : Prop :=
  (t = 0 ∧ ∀ l, l < 256 → U l → variance n v l ≤ 0) ∨
  (t < 256 ∧ U t ∧ 0 < variance n v t ∧ (∀ l, l < 256 → U l → variance n v l ≤ variance n v t) ∧
    ∀ l, l < t → U l → variance n v l < variance n v t)

/-- The accumulated weight says that both classes have pixels. -/
def Usable (n : Nat) (v : Nat → UInt8) (l : Nat) : Prop := weight n v l ≠ 0 ∧ weight n v l ≠ 1

/-- Both classes really have pixels. -/
def BothClasses (n : Nat) (v : Nat → UInt8) (l : Nat) : Prop :=
  (∃ i, i < n ∧ (v i).toNat ≤ l) ∧ ∃ i, i < n ∧ l < (v i).toNat

end FlatCV.Spec
