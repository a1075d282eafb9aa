/-
What resizing an image should compute, over the rationals.  Nothing here refers to the model.
-/
import Verif.Spec.Image
import Verif.Core.Float
import Mathlib.Algebra.BigOperators.Group.Finset.Basic

namespace FlatCV

open Finset

/-- Output size along one axis: the product as a `double`, cut to an integer. -/
def outDim (n : ℕ) (r : ℚ) : ℕ := ⌊Fmt.b64.rnd (n * r)⌋.toNat

/-- Position of the centre of output pixel `o` among the centres of the source pixels. -/
def posn (r : ℚ) (o : ℕ) : ℚ := (o + 1 / 2) / r - 1 / 2

/-- Linear interpolation of the samples `v 0 … v (n-1)` at `t`, constant beyond the ends. -/
def lerp (n : ℕ) (v : ℕ → ℚ) (t : ℚ) : ℚ :=
  let u := max 0 (min t (n - 1))
  let i := ⌊u⌋.toNat
  v i * (1 - (u - i)) + v (min (i + 1) (n - 1)) * (u - i)

/-- Bilinear interpolation of `v x y` at `(tx, ty)`. -/
def lerp2 (w h : ℕ) (v : ℕ → ℕ → ℚ) (tx ty : ℚ) : ℚ :=
  lerp h (fun y => lerp w (fun x => v x y) tx) ty

/-- Length of the part of `[s, s+1]` inside `[a, b]`. -/
def overlap (a b : ℚ) (s : ℕ) : ℚ := max 0 (min ((s : ℚ) + 1) b - max (s : ℚ) a)

/-- Area of the part of the image inside the rectangle `[a, b] × [c, e]`, weighted by `v`. -/
def areaSum (w h : ℕ) (a b c e : ℚ) (v : ℕ → ℕ → ℚ) : ℚ :=
  ∑ y ∈ range h, ∑ x ∈ range w, overlap a b x * overlap c e y * v x y

/-- Mean of `v` over the rectangle `[a, b] × [c, e]`, pixel `(x, y)` being the unit square at
`(x, y)`. -/
def areaMean (w h : ℕ) (a b c e : ℚ) (v : ℕ → ℕ → ℚ) : ℚ :=
  areaSum w h a b c e v / areaSum w h a b c e (fun _ _ => 1)

/-- Equal up to the precision of coordinates in `double`. -/
def Close (a b : ℚ) : Prop := |a - b| ≤ 1 / 2 ^ 16

/-- `b` is `m` rounded to the nearest integer, up to floating-point rounding. -/
def RoundsTo (m : ℚ) (b : UInt8) : Prop := |(b.toNat : ℚ) - m| ≤ 1 / 2 + 1 / 1024

/-- `out` is `d` interpolated bilinearly at the centres of the output pixels; alpha is 255. -/
def Interpolated (rx ry : ℚ) (w h : ℕ) (d : List UInt8) (ow oh : ℕ) (out : List UInt8) : Prop :=
  out.length = ow * oh * 4 ∧ ∀ x < ow, ∀ y < oh, px ow 4 out x y 3 = 255 ∧
    ∃ tx ty, Close tx (posn rx x) ∧ Close ty (posn ry y) ∧
      ∀ c < 3, RoundsTo (lerp2 w h (fun x' y' => ((px w 4 d x' y' c).toNat : ℚ)) tx ty) (px ow 4 out x y c)

/-- `out` is the mean of `d` over the footprint of each output pixel, moved by `s` to the left and
to the top; alpha is 255. -/
def AreaAveraged (s rx ry : ℚ) (w h : ℕ) (d : List UInt8) (ow oh : ℕ) (out : List UInt8) : Prop :=
  out.length = ow * oh * 4 ∧ ∀ x < ow, ∀ y < oh, px ow 4 out x y 3 = 255 ∧
    ∃ a b c e, Close a (x / rx - s) ∧ Close b ((x + 1) / rx - s) ∧
      Close c (y / ry - s) ∧ Close e ((y + 1) / ry - s) ∧
      0 < areaSum w h a b c e (fun _ _ => 1) ∧
      ∀ k < 3, RoundsTo (areaMean w h a b c e (fun x' y' => ((px w 4 d x' y' k).toNat : ℚ))) (px ow 4 out x y k)

end FlatCV
