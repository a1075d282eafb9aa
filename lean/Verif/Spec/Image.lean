/-
Specification vocabulary for interleaved images.  Nothing here refers to the model.
-/

namespace FlatCV

/-- Channel `c` of the pixel in column `x`, row `y` of a `w`-pixel-wide image with `ch`
interleaved channels.  (Meaningful for `x < w`, `c < ch` and rows inside the data.) -/
def px (w ch : Nat) (d : List UInt8) (x y c : Nat) : UInt8 :=
  (d[(y * w + x) * ch + c]?).getD 0

/-- The `w × h` image with `ch` channels whose samples are `f x y c`. -/
def mkImg (w h ch : Nat) (f : Nat → Nat → Nat → UInt8) : List UInt8 :=
  (List.range (w * h * ch)).map fun k => f (k / ch % w) (k / ch / w) (k % ch)

/-- Channel `c` of the `i`-th pixel (row-major) of an image with `ch` channels. -/
def px1 (ch : Nat) (d : List UInt8) (i c : Nat) : UInt8 := (d[i * ch + c]?).getD 0

/-- The `n`-pixel image with `ch` channels whose samples are `f i c`. -/
def mkPx (n ch : Nat) (f : Nat → Nat → UInt8) : List UInt8 :=
  (List.range (n * ch)).map fun k => f (k / ch) (k % ch)

end FlatCV
