/-
What drawing and bordering mean.  Nothing here refers to the model.
-/
import Verif.Spec.Image

namespace FlatCV.Spec

/-- Byte `c` of a pixel painted with colour `(r, g, b)` (`lum` is its gray level), when it held
`old`: one channel gets the gray level, three or more get the colour, alpha becomes opaque; two
channels and extra channels keep their value. -/
def paintByte (ch : Nat) (r g b lum : UInt8) (c : Nat) (old : UInt8) : UInt8 :=
  if ch = 1 then lum
  else if ch < 3 then old
  else if c = 0 then r
  else if c = 1 then g
  else if c = 2 then b
  else if ch = 4 ∧ c = 3 then 255
  else old

open Classical in
/-- The image `d` after painting the pixels of `S`. -/
noncomputable def painted (w h ch : Nat) (r g b lum : UInt8) (S : Int → Int → Prop)
    (d : List UInt8) : List UInt8 :=
  mkImg w h ch fun x y c =>
    if S x y then paintByte ch r g b lum c (px w ch d x y c) else px w ch d x y c

/-- `L` is the luma `0.299 r + 0.587 g + 0.114 b` rounded down, except that when the luma is an
integer `L` may be one less. -/
def IsLuma (r g b L : UInt8) : Prop :=
  let s := 299 * r.toNat + 587 * g.toNat + 114 * b.toNat
  (1000 * L.toNat ≤ s ∧ s < 1000 * (L.toNat + 1)) ∨ s = 1000 * (L.toNat + 1)

/-- A `w × h` image framed by `b` pixels of colour `(r, g, bl)` on each side. -/
def bordered (w h ch : Nat) (r g bl lum : UInt8) (b : Nat) (d : List UInt8) : List UInt8 :=
  mkImg (w + 2 * b) (h + 2 * b) ch fun x y c =>
    if b ≤ x ∧ x < b + w ∧ b ≤ y ∧ y < b + h then px w ch d (x - b) (y - b) c
    else paintByte ch r g bl lum c 0

end FlatCV.Spec
