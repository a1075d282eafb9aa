/-
Corner detection: which thresholds are tried, and where the corners lie.
-/
import Verif.Spec.Peaks
import Verif.Model.Detect

namespace FlatCV.Spec
open FlatCV.Model

/-- `x` is `y` up to rounding. -/
def Close (x y : ℚ) : Prop := |x - y| ≤ 1 / 10 ^ 15

/-- The thresholds of search `m`: accuracy `0.4 - 0.05 m`, roundness `0.2 - 0.05 m` but at least `0.01`. -/
def Thresholds (m : Nat) (acc rou : ℚ) : Prop :=
  Close acc (2 / 5 - m / 20) ∧ Close rou (max (1 / 5 - m / 20) (1 / 100))

/-- `ps` is a possible result of a search for peaks with these thresholds: qualified maxima in reading order, any two at
least 16 apart, and none missing without a stronger one nearby. -/
def PeakSet (w h : Nat) (d : List UInt8) (acc rou : ℚ) (ps : List (Nat × Nat)) : Prop :=
  AllQualified w h d acc rou ps ∧ Apart 16 ps ∧ SuppressedFairly w h d acc rou 16 ps

/-- The point lies strictly inside the `w x h` image. -/
def StrictlyInside (w h : Nat) (x y : Dbl) : Prop :=
  ∃ p q : ℚ, x = .fin p ∧ y = .fin q ∧ 0 < p ∧ p < w ∧ 0 < q ∧ q < h

/-- All four corners do. -/
def CornersInside (w h : Nat) (k : Corners Dbl) : Prop :=
  StrictlyInside w h k.tl_x k.tl_y ∧ StrictlyInside w h k.tr_x k.tr_y ∧ StrictlyInside w h k.br_x k.br_y ∧
    StrictlyInside w h k.bl_x k.bl_y

/-- The corner is the peak `p`, found on an `ow x oh` reduction of the `w x h` image, brought back to the size of the image. -/
def ScaledPeak (w h ow oh : Nat) (p : Nat × Nat) (x y : Dbl) : Prop :=
  x = .fin (Fmt.b64.rnd (p.1 * Fmt.b64.rnd (w / ow))) ∧ y = .fin (Fmt.b64.rnd (p.2 * Fmt.b64.rnd (h / oh)))

/-- The corners are four different peaks of the list. -/
def FourOf (w h ow oh : Nat) (ps : List (Nat × Nat)) (k : Corners Dbl) : Prop :=
  ∃ a b c d, [a, b, c, d].Subperm ps ∧ ScaledPeak w h ow oh a k.tl_x k.tl_y ∧ ScaledPeak w h ow oh b k.tr_x k.tr_y ∧
    ScaledPeak w h ow oh c k.br_x k.br_y ∧ ScaledPeak w h ow oh d k.bl_x k.bl_y

end FlatCV.Spec
