/-
What applying a 3x3 matrix to an image should compute.
-/
import Verif.Spec.Resize
import Verif.Core.Ieee
import Verif.Model.Perspective

namespace FlatCV.Spec
open FlatCV FlatCV.Model

/-- `a x + b y + c`, each operation rounded to `double`. -/
def linear64 (a b c : Dbl) (x y : Nat) : Dbl :=
  Dbl.add Fmt.b64 (Dbl.add Fmt.b64 (Dbl.mul Fmt.b64 a (.fin x)) (Dbl.mul Fmt.b64 b (.fin y))) c

/-- The denominator of output pixel `(x, y)` is (nearly) zero: it has no source position. -/
def NoPosition (m : Mat Dbl) (x y : Nat) : Prop :=
  ∃ q : ℚ, linear64 m.m20 m.m21 m.m22 x y = .fin q ∧ |q| < tiny10

/-- Output pixel `(x, y)` comes from the point `(sx, sy)` of the source, as computed in `double`. -/
structure Position (m : Mat Dbl) (x y : Nat) (sx sy : ℚ) : Prop where
  some : ¬ NoPosition m x y
  evalX : Dbl.div Fmt.b64 (linear64 m.m00 m.m01 m.m02 x y) (linear64 m.m20 m.m21 m.m22 x y) = .ok (.fin sx)
  evalY : Dbl.div Fmt.b64 (linear64 m.m10 m.m11 m.m12 x y) (linear64 m.m20 m.m21 m.m22 x y) = .ok (.fin sy)

/-- The coordinate can be converted to `int32_t`, and so can the next one. -/
def Fits32 (q : ℚ) : Prop := -2147483648 ≤ ⌊q⌋ ∧ ⌊q⌋ ≤ 2147483646

/-- All computed source coordinates fit. -/
def CoordsFit (m : Mat Dbl) (ow oh : Nat) : Prop :=
  ∀ x, x < ow → ∀ y, y < oh → NoPosition m x y ∨ ∃ sx sy, Position m x y sx sy ∧ Fits32 sx ∧ Fits32 sy

/-- `b` is `v` cut to an integer, up to floating-point rounding. -/
def Cuts (v : ℚ) (b : UInt8) : Prop := v - 1 - 1 / 1024 ≤ b.toNat ∧ (b.toNat : ℚ) ≤ v + 1 / 1024

/-- The point lies on the `w x h` image, pixel `(i, j)` covering `[i, i+1) x [j, j+1)`. -/
def OnImage (w h : Nat) (sx sy : ℚ) : Prop := 0 ≤ sx ∧ sx < w ∧ 0 ≤ sy ∧ sy < h

/-- The four samples `p` of an output pixel that comes from `(sx, sy)`: transparent black outside the source,
otherwise the bilinear interpolation; an exact copy at integer points. -/
structure SampledAt (iw ih : Nat) (d : List UInt8) (sx sy : ℚ) (p : Nat → UInt8) : Prop where
  outside : ¬ OnImage iw ih sx sy → ∀ c, c < 4 → p c = 0
  inside : OnImage iw ih sx sy → ∃ tx ty, |tx - sx| ≤ 1 / 2 ^ 50 ∧ |ty - sy| ≤ 1 / 2 ^ 50 ∧
    ∀ c, c < 4 → Cuts (lerp2 iw ih (fun x y => ((px iw 4 d x y c).toNat : ℚ)) tx ty) (p c)
  exact : ∀ i j : Nat, i < iw → j < ih → sx = i → sy = j → ∀ c, c < 4 → p c = px iw 4 d i j c

/-- `out` is the image `d` seen through the matrix `m`. -/
def Warped (m : Mat Dbl) (iw ih : Nat) (d : List UInt8) (ow oh : Nat) (out : List UInt8) : Prop :=
  out.length = ow * oh * 4 ∧ ∀ x, x < ow → ∀ y, y < oh →
    (NoPosition m x y ∧ ∀ c, c < 4 → px ow 4 out x y c = 0) ∨
    ∃ sx sy, Position m x y sx sy ∧ SampledAt iw ih d sx sy (px ow 4 out x y)

end FlatCV.Spec
