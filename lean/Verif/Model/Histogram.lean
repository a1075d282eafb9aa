/-
Model of `src/histogram.c`.
-/
import Verif.Core.Mem

namespace FlatCV.Model

/-- `hist[v]++` on a `uint32_t hist[256]` (histogram.c:103, 110, 112, 113). -/
def bump (hist : Cells Nat) (v : UInt8) : CM (Cells Nat) := do
  let c ← rd hist v.toNat
  wr hist v.toNat (u32 (c + 1))

/-- `uint32_t hist[256] = {0}` (histogram.c:73-76). -/
def zeroHist : Cells Nat := List.replicate 256 (some 0)

/-- histogram.c:78-88: `is_grayscale`. -/
def histIsGray (P : Plat) (img_size channels : Nat) (d : List UInt8) : CM Bool :=
  if channels = 4 then
    forBreak img_size 0 true fun i _ => do
      let idx := P.sz (i * 4)
      let a ← rdIn d idx
      let b ← rdIn d (P.sz (idx + 1))
      if a ≠ b then pure (false, true)
      else do
        let a ← rdIn d idx
        let c ← rdIn d (P.sz (idx + 2))
        if a ≠ c then pure (false, true) else pure (true, false)
  else pure (decide (channels = 1))

/-- histogram.c:90-104. -/
def histGray (P : Plat) (img_size channels : Nat) (d : List UInt8) : CM (Cells Nat) :=
  forN img_size zeroHist fun i hist => do
    let value ← (if channels = 1 then rdIn d i else rdIn d (P.sz (i * 4)) : CM UInt8)
    bump hist value

/-- histogram.c:105-116. -/
def histRGB (P : Plat) (img_size channels : Nat) (d : List UInt8) :
    CM (Cells Nat × Cells Nat × Cells Nat) :=
  forN img_size (zeroHist, zeroHist, zeroHist) fun i (hr, hg, hb) => do
    let idx := P.sz (i * channels)
    let hr ← bump hr (← rdIn d idx)
    if channels ≥ 3 then do
      let hg ← bump hg (← rdIn d (P.sz (idx + 1)))
      let hb ← bump hb (← rdIn d (P.sz (idx + 2)))
      pure (hr, hg, hb)
    else pure (hr, hg, hb)

/-- `if (hist[i] > max_count) max_count = hist[i];` (histogram.c:122-124 and so on). -/
def maxStep (hist : Cells Nat) (i m : Nat) : CM Nat := do
  let c ← rd hist i
  if c > m then rd hist i else pure m

/-- histogram.c:119-126. -/
def maxGray (hist : Cells Nat) : CM Nat := forN 256 0 fun i m => maxStep hist i m

/-- histogram.c:127-141. -/
def maxRGB (channels : Nat) (hr hg hb : Cells Nat) : CM Nat :=
  forN 256 0 fun i m => do
    let m ← maxStep hr i m
    if channels ≥ 3 then do
      let m ← maxStep hg i m
      maxStep hb i m
    else pure m

/-- The four stores of one bar pixel (histogram.c:157-164, 182-184 and 204-207). -/
def barPixel (x y : Nat) (r g b : UInt8) (out : Cells UInt8) : CM (Cells UInt8) := do
  let output_y := u32sub (u32sub 200 1) y
  let output_idx := u32 (u32 (u32 (output_y * 256) + x) * 4)
  let out ← wr out output_idx r
  let out ← wr out (u32 (output_idx + 1)) g
  let out ← wr out (u32 (output_idx + 2)) b
  wr out (u32 (output_idx + 3)) 255

/-- `(hist[x] * hist_height) / max_count` (histogram.c:152, 169-173). -/
def barHeight (hist : Cells Nat) (x max_count : Nat) : CM Nat := do
  let c ← rd hist x
  if max_count = 0 then .error .divByZero else pure (u32 (c * 200) / max_count)

/-- histogram.c:147-165 for gray images. -/
def drawGrayBars (hist : Cells Nat) (max_count : Nat) (out : Cells UInt8) : CM (Cells UInt8) :=
  forN 256 out fun x out => do
    let bar_height ← barHeight hist x max_count
    forN bar_height out fun y out => barPixel x y 255 255 255 out

/-- histogram.c:147-149, 166-209 for colour images. -/
def drawRGBBars (channels : Nat) (hr hg hb : Cells Nat) (max_count : Nat) (out : Cells UInt8) :
    CM (Cells UInt8) :=
  forN 256 out fun x out => do
    let bar_height_r ← barHeight hr x max_count
    let bar_height_g ← (if channels ≥ 3 then barHeight hg x max_count else pure 0 : CM Nat)
    let bar_height_b ← (if channels ≥ 3 then barHeight hb x max_count else pure 0 : CM Nat)
    let m := bar_height_r
    let m := if bar_height_g > m then bar_height_g else m
    let m := if bar_height_b > m then bar_height_b else m
    forN m out fun y out =>
      barPixel x y (if y < bar_height_r then 255 else 0)
        (if channels ≥ 3 ∧ y < bar_height_g then 255 else 0)
        (if channels ≥ 3 ∧ y < bar_height_b then 255 else 0) out

/-- histogram.c:67-212: everything after the allocation. -/
def fillHistogram (P : Plat) (img_size channels : Nat) (d : List UInt8) (output : Cells UInt8) :
    CM (Cells UInt8) := do
  let output ← forN (u32 (256 * 200)) output fun i o => wr o (u32 (u32 (i * 4) + 3)) 255
  let is_grayscale ← histIsGray P img_size channels d
  if is_grayscale then do
    let hist ← histGray P img_size channels d
    let max_count ← maxGray hist
    if max_count = 0 then pure output else drawGrayBars hist max_count output
  else do
    let (hr, hg, hb) ← histRGB P img_size channels d
    let max_count ← maxRGB channels hr hg hb
    if max_count = 0 then pure output else drawRGBBars channels hr hg hb max_count output

/-- histogram.c:27-212.  The second result is what was stored through `out_width` and
`out_height`; NULL for those two pointers (35) is not modelled. -/
def fcv_generate_histogram (P : Plat) (width height channels : Nat) (data : Option (List UInt8)) :
    HM (Option (Buf UInt8) × Option (Nat × Nat)) :=
  match data with
  | none => pure (none, none)
  | some d =>
    if width = 0 ∨ height = 0 ∨ channels = 0 then pure (none, none)
    else if width > P.szMax / height then pure (none, none)
    else
      let img_size := P.sz (width * height)
      if img_size > P.szMax / channels then pure (none, none)
      else do
        match ← calloc (P.sz (P.sz (256 * 200) * 4)) (0 : UInt8) with
        | none => pure (none, some (256, 200))
        | some b => do
          let c ← use [b.id] (fillHistogram P img_size channels d b.cells)
          pure (some { b with cells := c }, some (256, 200))

end FlatCV.Model
