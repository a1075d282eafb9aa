/-
What a Gaussian blur computes, over the real numbers.  Nothing here refers to the model.
-/
import Verif.Spec.Image
import Verif.Core.Float
import Mathlib.Analysis.SpecialFunctions.Exp
import Mathlib.Algebra.BigOperators.Group.Finset.Basic

namespace FlatCV

open Finset

/-- The standard deviation `radius / 3` as a `float`. -/
def sigma32 (r : ℚ) : ℚ := Fmt.b32.rnd (Fmt.b64.rnd (r / 3))

/-- The radius is so small that its variance is zero as a `float` (radii up to about `2^-73`). -/
def SigmaVanishes (r : ℚ) : Prop := Fmt.b32.rnd (sigma32 r * sigma32 r) = 0

/-- What is assumed of the C library's `exp`: exact at 0 and a relative error of at most `2^-30`
on `[-5, 0]` (any real implementation is within `2^-50`). -/
structure ExpOk (ex : ℚ → ℚ) : Prop where
  zero : ex 0 = 1
  acc : ∀ x : ℚ, -5 ≤ x → x ≤ 0 → |(ex x : ℝ) - Real.exp x| ≤ Real.exp x / 2 ^ 30

/-- Unnormalised Gaussian weight at distance `k` with standard deviation `r / 3`. -/
noncomputable def gauss (r : ℝ) (k : ℤ) : ℝ := Real.exp (-((k : ℝ) ^ 2) / (2 * (r / 3) ^ 2))

/-- Weighted mean of the samples `v 0 … v (n-1)` in the window `i-R … i+R` (cut at the ends);
`G k` is the weight of the sample at `i + k`. -/
noncomputable def winMean (G : ℤ → ℝ) (R n : ℕ) (v : ℕ → ℝ) (i : ℕ) : ℝ :=
  (∑ j ∈ range (2 * R + 1), if R ≤ i + j ∧ i + j < n + R then G (j - R) * v (i + j - R) else 0) /
  (∑ j ∈ range (2 * R + 1), if R ≤ i + j ∧ i + j < n + R then G (j - R) else 0)

/-- `b` is the mean `m` cut to a byte, up to an eighth for floating-point rounding. -/
def NearBelow (m : ℝ) (b : UInt8) : Prop := m - 9 / 8 < (b.toNat : ℝ) ∧ (b.toNat : ℝ) < m + 1 / 8

/-- `out` is `d` averaged along the rows and then along the columns with weights `G` over the
window of radius `R`; the alpha channel becomes 255. -/
def Averaged (G : ℤ → ℝ) (R w h : ℕ) (d out : List UInt8) : Prop :=
  ∃ mid : List UInt8, mid.length = w * h * 4 ∧ out.length = w * h * 4 ∧
    ∀ x < w, ∀ y < h,
      (∀ c < 3,
        NearBelow (winMean G R w (fun x' => ((px w 4 d x' y c).toNat : ℝ)) x) (px w 4 mid x y c) ∧
        NearBelow (winMean G R h (fun y' => ((px w 4 mid x y' c).toNat : ℝ)) y) (px w 4 out x y c)) ∧
      px w 4 out x y 3 = 255

/-- The distance whose Gaussian weight the code gives to the sample at `k`: the distance itself
for integer radii, but one less on the right-hand side for fractional radii. -/
def codeOffset (r : ℚ) (k : ℤ) : ℤ := if r ≠ (⌊r⌋ : ℚ) ∧ 0 < k then k - 1 else k

end FlatCV
