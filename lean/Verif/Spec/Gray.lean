/-
Grayscale specifications.
-/
import Verif.Spec.Image

namespace FlatCV.Spec

/-- The documented integer luma: weights 76/256, 150/256 and 30/256, rounded down. -/
def luma (r g b : UInt8) : UInt8 :=
  UInt8.ofNat ((76 * r.toNat + 150 * g.toNat + 30 * b.toNat) / 256)

/-- Luma of the `i`-th pixel of an RGBA image. -/
def lumaAt (d : List UInt8) (i : Nat) : UInt8 := luma (px1 4 d i 0) (px1 4 d i 1) (px1 4 d i 2)

/-- One gray byte per pixel. -/
def gray (n : Nat) (d : List UInt8) : List UInt8 := mkPx n 1 fun i _ => lumaAt d i

/-- Opaque gray RGBA image with the gray values `v i`. -/
def grayRGBA (n : Nat) (v : Nat → UInt8) : List UInt8 :=
  mkPx n 4 fun i c => if c < 3 then v i else 255

/-- Number of the first `n` values that satisfy `p`. -/
def countP (n : Nat) (p : Nat → Bool) : Nat := ((List.range n).filter p).length

/-- `low` is the dark quantile: the least level with more than `n/64` pixels at or below it. -/
def IsLow (n : Nat) (v : Nat → UInt8) (low : Nat) : Prop :=
  low < 256 ∧ n / 64 < countP n (fun i => (v i).toNat ≤ low) ∧
    ∀ l, l < low → countP n (fun i => (v i).toNat ≤ l) ≤ n / 64

/-- `high` is the bright quantile: the greatest level with more than `n/64` pixels at or above. -/
def IsHigh (n : Nat) (v : Nat → UInt8) (high : Nat) : Prop :=
  high < 256 ∧ n / 64 < countP n (fun i => high ≤ (v i).toNat) ∧
    ∀ l, high < l → countP n (fun i => l ≤ (v i).toNat) ≤ n / 64

/-- The contrast stretch between two levels. -/
def stretch (low high : Nat) (v : UInt8) : UInt8 :=
  if low = high then v
  else if v.toNat < low then 0
  else if high < v.toNat then 255
  else UInt8.ofNat ((v.toNat - low) * 255 / (high - low))

/-- Two-level threshold. -/
def threshold (t v : UInt8) : UInt8 := if t < v then 255 else 0

/-- Smooth threshold between `lo` and `hi` (with `lo < hi`). -/
def ramp (lo hi : Nat) (v : UInt8) : UInt8 :=
  if v.toNat < lo then 0
  else if hi < v.toNat then 255
  else UInt8.ofNat ((v.toNat - lo) * 255 / (hi - lo))

/-- Apply `f` to the first `n` bytes and leave the rest alone. -/
def mapFirst (n : Nat) (f : UInt8 → UInt8) (d : List UInt8) : List UInt8 :=
  (d.take n).map f ++ d.drop n

end FlatCV.Spec
