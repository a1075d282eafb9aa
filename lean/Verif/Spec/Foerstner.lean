/-
Foerstner's corner measures over the rational numbers.  Nothing here refers to the model.
-/
import Verif.Spec.Image
import Mathlib.Algebra.BigOperators.Group.Finset.Basic
import Mathlib.Algebra.Order.Field.Rat

namespace FlatCV.Spec
open Finset

/-- `(x, y)` is at least `k` pixels away from every border of a `w × h` image. -/
def Inner (w h k x y : Nat) : Prop := k ≤ x ∧ x + k < w ∧ k ≤ y ∧ y + k < h

instance (w h k x y : Nat) : Decidable (Inner w h k x y) := inferInstanceAs (Decidable (_ ∧ _ ∧ _ ∧ _))

/-- Eight times the horizontal slope at a pixel that is not on the border; 0 on the border. -/
def slopeX (w h : Nat) (g : List UInt8) (x y : Nat) : Int :=
  let v : Nat → Nat → Int := fun x y => (px w 1 g x y 0).toNat
  if Inner w h 1 x y then
    (v (x + 1) (y - 1) + 2 * v (x + 1) y + v (x + 1) (y + 1)) -
      (v (x - 1) (y - 1) + 2 * v (x - 1) y + v (x - 1) (y + 1))
  else 0

/-- Eight times the vertical slope. -/
def slopeY (w h : Nat) (g : List UInt8) (x y : Nat) : Int :=
  let v : Nat → Nat → Int := fun x y => (px w 1 g x y 0).toNat
  if Inner w h 1 x y then
    (v (x - 1) (y + 1) + 2 * v x (y + 1) + v (x + 1) (y + 1)) -
      (v (x - 1) (y - 1) + 2 * v x (y - 1) + v (x + 1) (y - 1))
  else 0

/-- Sum over the square window of half-width `k`. -/
def boxSum (k : Nat) (f : Nat → Nat → Int) (x y : Nat) : Int :=
  ∑ j ∈ range (2 * k + 1), ∑ i ∈ range (2 * k + 1), f (x + i - k) (y + j - k)

/-- Mean of the product of two slopes over the window; 0 closer than `k` to the border. -/
def tensor (w h k : Nat) (p q : Nat → Nat → Int) (x y : Nat) : ℚ :=
  if Inner w h k x y then (boxSum k (fun x y => p x y * q x y) x y : ℚ) / 64 / (2 * k + 1) ^ 2 else 0

/-- Foerstner's `w`: determinant over trace of the mean tensor (0 where the trace is 0). -/
def cornerW (w h k : Nat) (g : List UInt8) (x y : Nat) : ℚ :=
  let a := tensor w h k (slopeX w h g) (slopeX w h g) x y
  let b := tensor w h k (slopeY w h g) (slopeY w h g) x y
  let c := tensor w h k (slopeX w h g) (slopeY w h g) x y
  (a * b - c * c) / (a + b)

/-- Foerstner's `q`: four times the determinant over the squared trace, between 0 and 1. -/
def cornerQ (w h k : Nat) (g : List UInt8) (x y : Nat) : ℚ :=
  let a := tensor w h k (slopeX w h g) (slopeX w h g) x y
  let b := tensor w h k (slopeY w h g) (slopeY w h g) x y
  let c := tensor w h k (slopeX w h g) (slopeY w h g) x y
  4 * (a * b - c * c) / (a + b) ^ 2

/-- Channel `c` of the two-channel image `out` shows `F`, computed with an error of at most `ε` and
scaled so that the largest computed value becomes 255. -/
def ScaledMap (w h : Nat) (F : Nat → Nat → ℚ) (ε : ℚ) (out : List UInt8) (c : Nat) : Prop :=
  ∃ (V : Nat → Nat → ℚ) (M : ℚ),
    (∀ x, x < w → ∀ y, y < h → |V x y - F x y| ≤ ε ∧ 0 ≤ V x y ∧ V x y ≤ M) ∧
    (M = 0 ∨ ∃ x, x < w ∧ ∃ y, y < h ∧ V x y = M) ∧
    (M = 0 → ∀ x, x < w → ∀ y, y < h → px w 2 out x y c = 0) ∧
    (0 < M → ∀ x, x < w → ∀ y, y < h →
      255 * (V x y / M) - 1 - 1 / 2 ^ 40 < ((px w 2 out x y c).toNat : ℚ) ∧
        ((px w 2 out x y c).toNat : ℚ) ≤ 255 * (V x y / M) + 1 / 2 ^ 40)

end FlatCV.Spec
