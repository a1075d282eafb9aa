/-
Binary morphology with the disk of radius `r + 1/2`, on sets of pixels.
-/
import Verif.Spec.Image

namespace FlatCV.Spec

/-- Offset `(dx, dy)` lies in the disk of radius `r + 1/2`. -/
def Disk (r : Nat) (dx dy : Int) : Prop := 4 * (dx * dx + dy * dy) ≤ (2 * r + 1) * (2 * r + 1)

/-- White pixels of a one-channel image. -/
def White (w h : Nat) (d : List UInt8) (x y : Nat) : Prop :=
  x < w ∧ y < h ∧ px w 1 d x y 0 = 255

/-- Pixels of the image within the disk around some pixel of `S`. -/
def Dilate (w h r : Nat) (S : Nat → Nat → Prop) (x y : Nat) : Prop :=
  x < w ∧ y < h ∧ ∃ x' y' : Nat, S x' y' ∧ Disk r ((x : Int) - x') ((y : Int) - y')

/-- Pixels whose whole disk lies inside the image and in `S`. -/
def Erode (w h r : Nat) (S : Nat → Nat → Prop) (x y : Nat) : Prop :=
  x < w ∧ y < h ∧ ∀ dx dy : Int, Disk r dx dy →
    ∃ x' y' : Nat, (x' : Int) = x + dx ∧ (y' : Int) = y + dy ∧ x' < w ∧ y' < h ∧ S x' y'

/-- Pixels whose disk, as far as it lies inside the image, is contained in `S`. -/
def ErodeIn (w h r : Nat) (S : Nat → Nat → Prop) (x y : Nat) : Prop :=
  x < w ∧ y < h ∧ ∀ x' y' : Nat, x' < w → y' < h →
    Disk r ((x' : Int) - x) ((y' : Int) - y) → S x' y'

open Classical in
/-- The image that is white (255) exactly on `S` and black (0) elsewhere. -/
noncomputable def binImg (w h : Nat) (S : Nat → Nat → Prop) : List UInt8 :=
  mkImg w h 1 fun x y _ => if S x y then 255 else 0

end FlatCV.Spec
