/-
Model of `src/rgba_to_grayscale.c`, `src/single_to_multichannel.c` and the integer functions
of `src/conversion.c` (grayscale, stretch, thresholds).
-/
import Verif.Core.Mem

namespace FlatCV.Model

/-- rgba_to_grayscale.c:54, conversion.c:64, 129, 170 with the weights of
include/rgba_to_grayscale.h:8-10.  The `int` intermediate is at most 65280. -/
def lumaByte (r g b : UInt8) : UInt8 :=
  u8 ((r.toNat * 76 + g.toNat * 150 + b.toNat * 30) / 256)

/-- rgba_to_grayscale.c:25-60. -/
def fcv_rgba_to_grayscale (P : Plat) (width height : Nat) (data : Option (List UInt8)) :
    HM (Option (Buf UInt8)) :=
  match data with
  | none => pure none
  | some d =>
    if width = 0 ∨ height = 0 then pure none
    else if width > P.szMax / height then pure none
    else
      let img_length_px := P.sz (width * height)
      allocFill img_length_px fun out =>
        forN img_length_px out fun i out => do
          let rgba_index := P.sz (i * 4)
          let r ← rdIn d rgba_index
          let g ← rdIn d (P.sz (rgba_index + 1))
          let b ← rdIn d (P.sz (rgba_index + 2))
          wr out i (lumaByte r g b)

/-- single_to_multichannel.c:24-57. -/
def fcv_single_to_multichannel (P : Plat) (width height : Nat) (data : Option (List UInt8)) :
    HM (Option (Buf UInt8)) :=
  match data with
  | none => pure none
  | some d =>
    if width = 0 ∨ height = 0 then pure none
    else if width > P.szMax / height then pure none
    else
      let img_length_px := P.sz (width * height)
      if img_length_px > P.szMax / 4 then pure none
      else
        allocFill (P.sz (img_length_px * 4)) fun out =>
          forN img_length_px out fun i out => do
            let rgba_index := P.sz (i * 4)
            let out ← wr out rgba_index (← rdIn d i)
            let out ← wr out (P.sz (rgba_index + 1)) (← rdIn d i)
            let out ← wr out (P.sz (rgba_index + 2)) (← rdIn d i)
            wr out (P.sz (rgba_index + 3)) 255

/-- The four stores conversion.c:66-69 / 187-190, with a `uint32_t` index. -/
def putGray (out : Cells UInt8) (rgba_index : Nat) (gray : UInt8) : CM (Cells UInt8) := do
  let out ← wr out rgba_index gray
  let out ← wr out (u32 (rgba_index + 1)) gray
  let out ← wr out (u32 (rgba_index + 2)) gray
  wr out (u32 (rgba_index + 3)) 255

/-- The three loads and the luma conversion.c:60-64 / 125-129 / 166-170 (`uint32_t` index). -/
def getLuma (d : List UInt8) (rgba_index : Nat) : CM UInt8 := do
  let r ← rdIn d rgba_index
  let g ← rdIn d (u32 (rgba_index + 1))
  let b ← rdIn d (u32 (rgba_index + 2))
  pure (lumaByte r g b)

/-- conversion.c:34-73.  The loop bound `width * height` (57) and the index `i * 4` (58) are
computed in `uint32_t`. -/
def fcv_grayscale (P : Plat) (width height : Nat) (data : Option (List UInt8)) :
    HM (Option (Buf UInt8)) :=
  match data with
  | none => pure none
  | some d =>
    if width = 0 ∨ height = 0 then pure none
    else if width > P.szMax / height then pure none
    else
      let num_pixels := P.sz (width * height)
      if num_pixels > P.szMax / 4 then pure none
      else
        allocFill (P.sz (num_pixels * 4)) fun out =>
          forN (u32 (width * height)) out fun i out => do
            let rgba_index := u32 (i * 4)
            let gray ← getLuma d rgba_index
            putGray out rgba_index gray

/-- A histogram of byte values: `uint32_t histogram[256] = {0}; for (uint32_t i …)
histogram[vals[i]]++` (conversion.c:133-136 and 276-279); the increment wraps at `2^32`. -/
def histogramLoop (n : Nat) (vals : Cells UInt8) : CM (Cells Nat) :=
  forU32 n (List.replicate 256 (some 0)) fun i hist => do
    let v ← rd vals i
    let c ← rd hist v.toNat
    wr hist v.toNat (u32 (c + 1))

/-- conversion.c:138-146: first level whose cumulative count exceeds `ign`. -/
def findMin (hist : Cells Nat) (ign : Nat) : CM Nat := do
  let r ← forBreak 256 0 (0, 0) fun i (s : Nat × Nat) => do
    let c ← rd hist i
    let cum := u32 (s.1 + c)
    if cum > ign then pure ((cum, i), true) else pure ((cum, s.2), false)
  pure r.2

/-- conversion.c:148-156: last level whose count from above exceeds `ign`. -/
def findMax (hist : Cells Nat) (ign : Nat) : CM Nat := do
  let r ← forBreak 256 0 (0, 255) fun k (s : Nat × Nat) => do
    let i := 255 - k
    let c ← rd hist i
    let cum := u32 (s.1 + c)
    if cum > ign then pure ((cum, i), true) else pure ((cum, s.2), false)
  pure r.2

/-- conversion.c:172-185: the stretched value; `range = (uint8_t)(max_val - min_val)` (160).
The product `(gray - min_val) * 255` is a non-negative `int`. -/
def stretchByte (min_val max_val : Nat) (gray : UInt8) : CM UInt8 :=
  let range := (max_val + 256 - min_val) % 256
  if range = 0 then pure gray
  else if gray.toNat < min_val then pure 0
  else if gray.toNat > max_val then pure 255
  else pure (u8 ((gray.toNat - min_val) * 255 / range))

/-- conversion.c:88-193.  Two blocks: the result (108) and the temporary gray values (117),
released at 158; when the second allocation fails the first is released (119). -/
def fcv_grayscale_stretch (P : Plat) (width height : Nat) (data : Option (List UInt8)) :
    HM (Option (Buf UInt8)) :=
  match data with
  | none => pure none
  | some d =>
    if width = 0 ∨ height = 0 then pure none
    else if width > P.szMax / height then pure none
    else
      let img_length_px := P.sz (width * height)
      if img_length_px > P.szMax / 4 then pure none
      else do
        match ← malloc UInt8 (P.sz (img_length_px * 4)) with
        | none => pure none
        | some out => do
          let num_pixels_to_ignore := u32 (img_length_px / 64)
          match ← malloc UInt8 img_length_px with
          | none => do
            free out.id
            pure none
          | some tmp => do
            let gv ← use [tmp.id] (forU32 img_length_px tmp.cells fun i g => do
              let v ← getLuma d (u32 (i * 4))
              wr g i v)
            let hist ← use [tmp.id] (histogramLoop img_length_px gv)
            let min_val ← use [] (findMin hist num_pixels_to_ignore)
            let max_val ← use [] (findMax hist num_pixels_to_ignore)
            free tmp.id
            let cells ← use [out.id] (forN img_length_px out.cells fun i o => do
              let rgba_index := u32 (i * 4)
              let gray ← getLuma d rgba_index
              let gray ← stretchByte min_val max_val gray
              putGray o rgba_index gray)
            pure (some { out with cells := cells })

/-- conversion.c:203-211, in place. -/
def fcv_apply_global_threshold (img_length_px : Nat) (data : Cells UInt8) (threshold : UInt8) :
    CM (Cells UInt8) :=
  forN img_length_px data fun i s => do
    let v ← rd s i
    wr s i (if v > threshold then 255 else 0)

/-- conversion.c:224-242, in place.  In the last branch `lower ≤ v ≤ upper`, so the `int`
operands are non-negative; the divisor is zero when the two thresholds are equal. -/
def apply_double_threshold (img_length_px : Nat) (data : Cells UInt8) (lower upper : UInt8) :
    CM (Cells UInt8) :=
  forN img_length_px data fun i s => do
    let v ← rd s i
    if v < lower then wr s i 0
    else if v > upper then wr s i 255
    else if upper.toNat - lower.toNat = 0 then .error .divByZero
    else wr s i (u8 ((v.toNat - lower.toNat) * 255 / (upper.toNat - lower.toNat)))

end FlatCV.Model
