/-
What the lossless geometric operations should compute, in terms of pixel coordinates.
-/
import Verif.Spec.Image

namespace FlatCV.Spec

/-- Mirror left-right: pixel `(x, y)` comes from `(w-1-x, y)`. -/
def flipX (w h : Nat) (d : List UInt8) : List UInt8 :=
  mkImg w h 4 fun x y c => px w 4 d (w - 1 - x) y c

/-- Mirror top-bottom: pixel `(x, y)` comes from `(x, h-1-y)`. -/
def flipY (w h : Nat) (d : List UInt8) : List UInt8 :=
  mkImg w h 4 fun x y c => px w 4 d x (h - 1 - y) c

/-- Reflection in the main diagonal; the result is `h` wide and `w` high. -/
def transpose (w h : Nat) (d : List UInt8) : List UInt8 :=
  mkImg h w 4 fun x y c => px w 4 d y x c

/-- Reflection in the anti-diagonal; the result is `h` wide and `w` high. -/
def transverse (w h : Nat) (d : List UInt8) : List UInt8 :=
  mkImg h w 4 fun x y c => px w 4 d (w - 1 - y) (h - 1 - x) c

/-- Quarter turn clockwise: the top row of the result is the left column read upwards. -/
def rot90 (w h : Nat) (d : List UInt8) : List UInt8 :=
  mkImg h w 4 fun x y c => px w 4 d y (h - 1 - x) c

/-- Half turn. -/
def rot180 (w h : Nat) (d : List UInt8) : List UInt8 :=
  mkImg w h 4 fun x y c => px w 4 d (w - 1 - x) (h - 1 - y) c

/-- Three quarter turns clockwise. -/
def rot270 (w h : Nat) (d : List UInt8) : List UInt8 :=
  mkImg h w 4 fun x y c => px w 4 d (w - 1 - y) x c

/-- The `nw × nh` sub-rectangle with top-left corner `(x0, y0)`. -/
def crop (w ch : Nat) (d : List UInt8) (x0 y0 nw nh : Nat) : List UInt8 :=
  mkImg nw nh ch fun x y c => px w ch d (x0 + x) (y0 + y) c

end FlatCV.Spec
