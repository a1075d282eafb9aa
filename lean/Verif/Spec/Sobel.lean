/-
What edge detection promises, independent of how it is computed.
-/
import Verif.Spec.Image
import Mathlib.Analysis.Real.Sqrt

namespace FlatCV.Spec

/-- Squared length of the Sobel gradient, given the columns and rows of the neighbourhood. -/
def sobelSq (v : Nat → Nat → Int) (x₀ x₁ x₂ y₀ y₁ y₂ : Nat) : Int :=
  let gx := (v x₂ y₀ + 2 * v x₂ y₁ + v x₂ y₂) - (v x₀ y₀ + 2 * v x₀ y₁ + v x₀ y₂)
  let gy := (v x₀ y₂ + 2 * v x₁ y₂ + v x₂ y₂) - (v x₀ y₀ + 2 * v x₁ y₀ + v x₂ y₀)
  gx * gx + gy * gy

/-- Squared edge strength of pixel `(x, y)` of a one-channel image; outside the image the nearest
pixel counts (`x - 1` is 0 for `x = 0`). -/
def edgeSq (w h : Nat) (g : List UInt8) (x y : Nat) : Int :=
  sobelSq (fun x y => ((px w 1 g x y 0).toNat : Int))
    (x - 1) x (min (x + 1) (w - 1)) (y - 1) y (min (y + 1) (h - 1))

/-- `out` is a normalised map of the strengths with squares `S`. -/
structure EdgeMap (w h : Nat) (S : Nat → Nat → Int) (out : List UInt8) : Prop where
  /-- One byte per pixel. -/
  len : out.length = w * h
  /-- Equal strength everywhere gives a black image. -/
  flat : (∀ x, x < w → ∀ y, y < h → ∀ x', x' < w → ∀ y', y' < h → S x y = S x' y') →
    ∀ x, x < w → ∀ y, y < h → px w 1 out x y 0 = 0
  /-- The weakest pixels are black. -/
  weakest : ∀ x, x < w → ∀ y, y < h → (∀ x', x' < w → ∀ y', y' < h → S x y ≤ S x' y') →
    px w 1 out x y 0 = 0
  /-- Unless all are equal, the strongest pixels are white. -/
  strongest : ∀ x, x < w → ∀ y, y < h → (∀ x', x' < w → ∀ y', y' < h → S x' y' ≤ S x y) →
    (∃ x', x' < w ∧ ∃ y', y' < h ∧ S x' y' < S x y) → px w 1 out x y 0 = 255
  /-- A stronger edge never gives a smaller byte. -/
  mono : ∀ x, x < w → ∀ y, y < h → ∀ x', x' < w → ∀ y', y' < h → S x y ≤ S x' y' →
    px w 1 out x y 0 ≤ px w 1 out x' y' 0

/-- Where `√s` lies between `√lo` and `√hi`, on the scale 0 … 255. -/
noncomputable def edgeLevel (lo hi s : Int) : ℝ :=
  255 * (Real.sqrt s - Real.sqrt lo) / (Real.sqrt hi - Real.sqrt lo)

/-- Every byte is the linear rescaling of the strength, cut to an integer, up to rounding. -/
def EdgeScaled (w h : Nat) (S : Nat → Nat → Int) (out : List UInt8) : Prop :=
  ∀ lo hi : Int, lo < hi →
    (∃ x, x < w ∧ ∃ y, y < h ∧ S x y = lo) → (∃ x, x < w ∧ ∃ y, y < h ∧ S x y = hi) →
    (∀ x, x < w → ∀ y, y < h → lo ≤ S x y ∧ S x y ≤ hi) →
    ∀ x, x < w → ∀ y, y < h →
      edgeLevel lo hi (S x y) - 1 - 1 / 10000 ≤ ((px w 1 out x y 0).toNat : ℝ) ∧
        ((px w 1 out x y 0).toNat : ℝ) ≤ edgeLevel lo hi (S x y) + 1 / 10000

end FlatCV.Spec
