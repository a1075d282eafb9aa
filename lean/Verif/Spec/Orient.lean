/-
EXIF orientation as the standard states it: which visual side the stored row 0 and the stored
column 0 are.
-/
import Verif.Spec.Image

namespace FlatCV.Spec

inductive Side
  | top | bottom | left | right
  deriving DecidableEq

/-- EXIF 2.3, tag 0x0112: (visual side of row 0, visual side of column 0). -/
def exifSides : Int → Side × Side
  | 2 => (.top, .right)
  | 3 => (.bottom, .right)
  | 4 => (.bottom, .left)
  | 5 => (.left, .top)
  | 6 => (.right, .top)
  | 7 => (.right, .bottom)
  | 8 => (.left, .bottom)
  | _ => (.top, .left)

/-- Place at which something stored `k` steps (out of `n`) from the side `s` is seen, counted
from the left or the top. -/
def seen (s : Side) (n k : Nat) : Nat :=
  match s with
  | .top | .left => k
  | .bottom | .right => n - 1 - k

/-- Row 0 is a vertical line on the screen. -/
def sideways (o : Int) : Bool := (exifSides o).1 = .left ∨ (exifSides o).1 = .right

/-- Size of the upright image. -/
def uprightSize (o : Int) (w h : Nat) : Nat × Nat := if sideways o then (h, w) else (w, h)

/-- Where the stored pixel `(x, y)` belongs in the upright image. -/
def uprightAt (o : Int) (w h x y : Nat) : Nat × Nat :=
  let row := seen (exifSides o).1 h y
  let col := seen (exifSides o).2 w x
  if sideways o then (row, col) else (col, row)

/-- `out` is the `w × h` RGBA image `d` put upright. -/
def Upright (o : Int) (w h : Nat) (d out : List UInt8) : Prop :=
  out.length = w * h * 4 ∧ ∀ x y c, x < w → y < h → c < 4 →
    px (uprightSize o w h).1 4 out (uprightAt o w h x y).1 (uprightAt o w h x y).2 c = px w 4 d x y c

end FlatCV.Spec
