/-
From the samples of a JPEG file to pixels: Recommendation T.871 (JFIF).
-/
import Mathlib.Data.Real.Basic
import Verif.Spec.Jpeg

namespace FlatCV.Jpg

/-- The nearest value that a byte can have. -/
noncomputable def limit (x : ℝ) : ℝ := max 0 (min 255 x)

/-- T.871, section 7: red, green and blue, before rounding and limiting. -/
noncomputable def redOf (Y Cr : ℝ) : ℝ := Y + 1.402 * (Cr - 128)
noncomputable def greenOf (Y Cb Cr : ℝ) : ℝ := Y - (0.114 * 1.772 * (Cb - 128) + 0.299 * 1.402 * (Cr - 128)) / 0.587
noncomputable def blueOf (Y Cb : ℝ) : ℝ := Y + 1.772 * (Cb - 128)

/-- Of a component with half as many samples (`w` in a line), sample `i` lies between the positions `2 i` and `2 i + 1` (T.871, section 8).
The sample next to position `x` is `x / 2`; this is the one on the other side, or the last one at an edge. -/
def beyond (w x : Nat) : Nat := if x % 2 = 0 then x / 2 - 1 else min (x / 2 + 1) (w - 1)

/-- Linear interpolation at position `x` along a line. -/
noncomputable def between (w : Nat) (s : Nat → ℝ) (x : Nat) : ℝ := 3 / 4 * s (x / 2) + 1 / 4 * s (beyond w x)

/-! ### The image that a file stands for -/

/-- The sample in row `y` and column `x` of component `c`, as a level from 0 to 255. -/
noncomputable def Contents.level (d : Contents) (c y x : Nat) : ℝ := limit (128 + d.recon c y x)

/-- A component with half as many samples in both directions, at a pixel. -/
noncomputable def Contents.half (d : Contents) (c y x : Nat) : ℝ :=
  between ((d.frame.height + 1) / 2) (fun i => between ((d.frame.width + 1) / 2) (fun j => d.level c i j) x) y

/-- Red, green and blue of a pixel in a file with a full component and two half ones. -/
noncomputable def Contents.red (d : Contents) (y x : Nat) : ℝ := limit (redOf (d.level 0 y x) (d.half 2 y x))
noncomputable def Contents.green (d : Contents) (y x : Nat) : ℝ := limit (greenOf (d.level 0 y x) (d.half 1 y x) (d.half 2 y x))
noncomputable def Contents.blue (d : Contents) (y x : Nat) : ℝ := limit (blueOf (d.level 0 y x) (d.half 1 y x))

end FlatCV.Jpg
