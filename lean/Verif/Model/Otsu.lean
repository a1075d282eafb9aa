/-
Model of `fcv_otsu_threshold_rgba` (`src/conversion.c`).
-/
import Verif.Model.Gray
import Verif.Core.Float

namespace FlatCV.Model

/-- conversion.c:282-284: `(float)histogram[i] / img_length_px` (the `size_t` is converted to
`float`). -/
def normHist (hist : Cells Nat) (n : Nat) : CM (Cells ℚ) :=
  forN 256 (List.replicate 256 (some 0)) fun i s => do
    let c ← rd hist i
    let a ← f32 c
    let b ← f32 n
    let v ← f32div a b
    wr s i v

/-- `acc += i * histogram_norm[i]` (conversion.c:289, 300). -/
def addMean (hn : Cells ℚ) (i : Nat) (acc : ℚ) : CM ℚ := do
  let v ← rd hn i
  let fi ← f32 i
  let p ← f32 (fi * v)
  f32 (acc + p)

/-- conversion.c:286-290. -/
def globalMean (hn : Cells ℚ) : CM ℚ :=
  forN 256 0 fun i g => addMean hn i g

/-- conversion.c:306-310: `class_variance`. -/
def classVariance (global_mean cumulative_sum cumulative_mean : ℚ) : CM ℚ := do
  let mean1 ← f32div cumulative_mean cumulative_sum
  let d ← f32 (global_mean - cumulative_mean)
  let e ← f32 (1 - cumulative_sum)
  let mean2 ← f32div d e
  let a ← f32 (cumulative_sum * e)
  let m ← f32 (mean1 - mean2)
  let b ← f32 (a * m)
  f32 (b * m)

/-- Variables of the loop conversion.c:298-316. -/
structure OtsuState where
  sum : ℚ
  mean : ℚ
  best : ℚ
  level : Nat

/-- conversion.c:299-315. -/
def otsuStep (hn : Cells ℚ) (global_mean : ℚ) (i : Nat) (s : OtsuState) : CM OtsuState := do
  let v ← rd hn i
  let cs ← f32 (s.sum + v)
  let cm ← addMean hn i s.mean
  if cs = 0 ∨ cs = 1 then pure ⟨cs, cm, s.best, s.level⟩
  else do
    let var ← classVariance global_mean cs cm
    if var > s.best then pure ⟨cs, cm, var, i⟩ else pure ⟨cs, cm, s.best, s.level⟩

/-- conversion.c:281-316: `optimal_threshold`. -/
def otsuLevel (hist : Cells Nat) (n : Nat) : CM Nat := do
  let hn ← normHist hist n
  let g ← globalMean hn
  let s ← forN 256 ⟨0, 0, 0, 0⟩ fun i s => otsuStep hn g i s
  pure s.level

/-- conversion.c:276-330: the in-place processing of the temporary gray image.  The number of
pixels is passed on as `uint32_t`, the thresholds as `uint8_t`. -/
def otsuPixels (n : Nat) (use_double_threshold : Bool) (gray : List UInt8) : CM (List UInt8) := do
  let hist ← histogramLoop n (gray.map some)
  let t ← otsuLevel hist n
  let c ← (if use_double_threshold then
      apply_double_threshold (u32 n) (gray.map some) (u8OfInt ((t : Int) - 16)) (u8OfInt ((t : Int) + 16))
    else fcv_apply_global_threshold (u32 n) (gray.map some) (u8OfInt t) : CM (Cells UInt8))
  asInput c

/-- conversion.c:253-338.  The temporary gray image is processed in place between its creation
and its use; `callThenFree` releases it at the end. -/
def fcv_otsu_threshold_rgba (P : Plat) (width height : Nat) (use_double_threshold : Bool)
    (data : Option (List UInt8)) : HM (Option (Buf UInt8)) :=
  match data with
  | none => pure none
  | some d =>
    if width = 0 ∨ height = 0 then pure none
    else if width > P.szMax / height then pure none
    else
      callThenFree (fcv_rgba_to_grayscale P width height (some d)) fun g => do
        let m ← use [] (otsuPixels (P.sz (width * height)) use_double_threshold g)
        fcv_single_to_multichannel P width height (some m)

end FlatCV.Model
