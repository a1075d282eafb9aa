/-
Model of `fcv_sobel_edge_detection` (`src/sobel_edge_detection.c`).
-/
import Verif.Model.Gray
import Verif.Core.Sqrt
import Verif.Core.Ieee

namespace FlatCV.Model

/-- sobel_edge_detection.c:78, row by row. -/
def sobel_x : List Int := [-1, 0, 1, -2, 0, 2, -1, 0, 1]

/-- sobel_edge_detection.c:79, row by row. -/
def sobel_y : List Int := [-1, -2, -1, 0, 0, 0, 1, 2, 1]

/-- sobel_edge_detection.c:103 and 107-112 (104 and 113-118): `x + kx` is computed in `uint32_t`,
stored in an `int32_t` and moved into the image. -/
def sobelCoord (n x : Nat) (k : Int) : Int :=
  let p := i32OfU32 (u32OfInt (x + k))
  let p := if p < 0 then 0 else p
  if u32OfInt p ≥ n then i32OfU32 (u32sub n 1) else p

/-- sobel_edge_detection.c:97-124: `gx` and `gy` of one pixel.  `ky`, `kx` are `j - 1`, `i - 1`;
the index is converted to `size_t`. -/
def sobelGrad (P : Plat) (width height : Nat) (g : List UInt8) (y x : Nat) : CM (Int × Int) :=
  forN 3 (0, 0) fun j s =>
    forN 3 s fun i s => do
      let px := sobelCoord width x (i - 1)
      let py := sobelCoord height y (j - 1)
      let pixel ← rdIn g ((py * width + px) % P.mod).toNat
      let a ← rdIn sobel_x (j * 3 + i)
      let gx ← i32 (s.1 + (← i32 (pixel.toNat * a)))
      let b ← rdIn sobel_y (j * 3 + i)
      let gy ← i32 (s.2 + (← i32 (pixel.toNat * b)))
      pure (gx, gy)

/-- sobel_edge_detection.c:126. -/
def sobelMag (gx gy : Int) : CM ℚ := do
  let a ← f64 (gx * gx)
  let b ← f64 (gy * gy)
  let s ← f64 (a + b)
  f64sqrt s

/-- Variables of the first pass, sobel_edge_detection.c:82-92. -/
structure SobelState where
  mags : Cells ℚ
  min : Dbl
  max : ℚ

/-- sobel_edge_detection.c:97-134. -/
def sobelPixel (P : Plat) (width height : Nat) (g : List UInt8) (y x : Nat) (s : SobelState) :
    CM SobelState := do
  let (gx, gy) ← sobelGrad P width height g y x
  let magnitude ← sobelMag gx gy
  let mags ← wr s.mags (P.sz (y * width + x)) magnitude
  pure ⟨mags, if Dbl.lt (.fin magnitude) s.min then .fin magnitude else s.min,
    if magnitude > s.max then magnitude else s.max⟩

/-- sobel_edge_detection.c:91-136. -/
def sobelFirst (P : Plat) (width height : Nat) (g : List UInt8) (mags : Cells ℚ) :
    CM SobelState :=
  forU32 height ⟨mags, .inf false, 0⟩ fun y s =>
    forU32 width s fun x s => sobelPixel P width height g y x s

/-- sobel_edge_detection.c:149-160: the byte of one magnitude. -/
def sobelByte (mn range magnitude : ℚ) : CM UInt8 := do
  let t ← f64 (magnitude - mn)
  let q ← f64div t range
  let v ← f64 (q * 255)
  let final ← castI32 v
  let final := if final < 0 then 0 else final
  let final := if final > 255 then 255 else final
  pure (u8OfInt final)

/-- sobel_edge_detection.c:139-162.  The minimum is finite because the first pass saw a pixel
(otherwise the fault `fpSpecial`). -/
def sobelSecond (P : Plat) (width height : Nat) (s : SobelState) (out : Cells UInt8) :
    CM (Cells UInt8) :=
  match s.min with
  | .fin mn => do
    let range ← f64 (s.max - mn)
    let range := if range = 0 then 1 else range
    forU32 height out fun y out =>
      forU32 width out fun x out => do
        let m ← rd s.mags (P.sz (y * width + x))
        let b ← sobelByte mn range m
        wr out (P.sz (y * width + x)) b
  | _ => .error .fpSpecial

/-- sobel_edge_detection.c:69-169 on grayscale data. -/
def sobelBody (P : Plat) (width height img_length_px : Nat) (g : List UInt8) :
    HM (Option (Buf UInt8)) := do
  match ← malloc UInt8 img_length_px with
  | none => pure none
  | some sobel => do
    match ← malloc ℚ img_length_px with
    | none => do
      free sobel.id
      pure none
    | some mags => do
      let s ← use [mags.id] (sobelFirst P width height g mags.cells)
      let c ← use [mags.id, sobel.id] (sobelSecond P width height s sobel.cells)
      free mags.id
      pure (some { sobel with cells := c })

/-- sobel_edge_detection.c:31-170.  The grayscale copy is freed last; the source frees it before
`sobel_data` when the second allocation fails, which no caller can observe. -/
def fcv_sobel_edge_detection (P : Plat) (width height channels : Nat)
    (data : Option (List UInt8)) : HM (Option (Buf UInt8)) :=
  match data with
  | none => pure none
  | some d =>
    if width = 0 ∨ height = 0 ∨ channels = 0 then pure none
    else if width > P.szMax / height then pure none
    else
      let img_length_px := P.sz (width * height)
      if img_length_px > P.szMax / 8 then pure none
      else if channels = 1 then sobelBody P width height img_length_px d
      else callThenFree (fcv_rgba_to_grayscale P width height (some d))
        (sobelBody P width height img_length_px)

end FlatCV.Model
