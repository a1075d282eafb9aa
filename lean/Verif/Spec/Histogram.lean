/-
What the histogram picture shows.  Nothing here refers to the model.
-/
import Verif.Spec.Gray

namespace FlatCV.Spec

/-- The image has one channel, or four with equal red, green and blue everywhere. -/
def IsGrayImg (n ch : Nat) (d : List UInt8) : Prop :=
  ch = 1 ∨ ch = 4 ∧ ∀ i, i < n → px1 4 d i 0 = px1 4 d i 1 ∧ px1 4 d i 0 = px1 4 d i 2

instance (n ch : Nat) (d : List UInt8) : Decidable (IsGrayImg n ch d) := by
  unfold IsGrayImg; infer_instance

/-- How many of the `n` pixels have value `v` in the channel shown in colour `c` of the picture:
gray images show the first channel in all three colours, two-channel images show only the first
channel (in red), other images show red, green and blue. -/
def histBar (n ch : Nat) (d : List UInt8) (c v : Nat) : Nat :=
  if IsGrayImg n ch d then countP n fun i => (px1 ch d i 0).toNat == v
  else if c = 0 ∨ 3 ≤ ch then countP n fun i => (px1 ch d i c).toNat == v
  else 0

/-- `m` is the largest of the bars. -/
def IsMaxBar (bar : Nat → Nat → Nat) (m : Nat) : Prop :=
  (∀ c v, c < 3 → v < 256 → bar c v ≤ m) ∧ ∃ c v, c < 3 ∧ v < 256 ∧ bar c v = m

/-- A 256×200 opaque picture: in column `v` the lowest `height c v` pixels have colour `c`. -/
def barChart (height : Nat → Nat → Nat) : List UInt8 :=
  mkImg 256 200 4 fun v y c => if c = 3 ∨ 199 - y < height c v then 255 else 0

end FlatCV.Spec
