/-
Model of `fcv_resize` (`src/conversion.c:608-794`).

Every value is finite: a factor is at least `2^-32` once the output has a pixel, so overflow in
the coordinate arithmetic is the fault `fpSpecial` and proved not to occur.
-/
import Verif.Core.Mem
import Verif.Core.Ieee

namespace FlatCV.Model

/-- conversion.c:693-694: `r_sum, g_sum, b_sum, total_weight`. -/
structure ResizeAcc where
  r : ℚ
  g : ℚ
  b : ℚ
  w : ℚ

/-- conversion.c:698-717: one source pixel of the area filter. -/
def resizeTap (width : Nat) (d : List UInt8) (x_start x_end y_start y_end : ℚ) (sy sx : Int)
    (a : ResizeAcc) : CM ResizeAcc := do
  let right ← i32 (sx + 1)
  let bottom ← i32 (sy + 1)
  let overlap_left : ℚ := if (sx : ℚ) > x_start then (sx : ℚ) else x_start
  let overlap_right : ℚ := if (right : ℚ) < x_end then (right : ℚ) else x_end
  let overlap_top : ℚ := if (sy : ℚ) > y_start then (sy : ℚ) else y_start
  let overlap_bottom : ℚ := if (bottom : ℚ) < y_end then (bottom : ℚ) else y_end
  if overlap_right > overlap_left ∧ overlap_bottom > overlap_top then do
    let ox ← f64 (overlap_right - overlap_left)
    let oy ← f64 (overlap_bottom - overlap_top)
    let weight ← f64 (ox * oy)
    let w ← f64 (a.w + weight)
    let src_idx := u32 (u32 (u32OfInt sy * width + u32OfInt sx) * 4)
    let pr ← rdIn d src_idx
    let r ← f64 (a.r + (← f64 (pr.toNat * weight)))
    let pg ← rdIn d (u32 (src_idx + 1))
    let g ← f64 (a.g + (← f64 (pg.toNat * weight)))
    let pb ← rdIn d (u32 (src_idx + 2))
    let b ← f64 (a.b + (← f64 (pb.toNat * weight)))
    pure ⟨r, g, b, w⟩
  else pure a

/-- conversion.c:664/665 and 737/738: the source coordinate of an output pixel. -/
def resizeCoord (r : ℚ) (o : Nat) : CM ℚ := do
  let q ← f64div (o + 1 / 2) r
  f64 (q - 1 / 2)

/-- conversion.c:664-691 for one axis: `start`, `end` and the two integer bounds. -/
def resizeWindow (n : Nat) (r : ℚ) (o : Nat) : CM (ℚ × ℚ × Int × Int) := do
  let src ← resizeCoord r o
  let filter_size ← f64div 1 r
  let half ← f64 (filter_size * (1 / 2))
  let start ← f64 (src - half)
  let end_ ← f64 (src + half)
  let i_start ← castI32 (⌊start⌋ : ℤ)
  let i_end ← castI32 (⌈end_⌉ : ℤ)
  let i_start := if i_start < 0 then 0 else i_start
  let i_end := if i_end > i32OfU32 n then i32OfU32 n else i_end
  pure (start, end_, i_start, i_end)

/-- conversion.c:723, 725, 727: `(uint8_t)(sum / total_weight + 0.5)`. -/
def resizeByte (s w : ℚ) : CM UInt8 := do
  let q ← f64div s w
  let q ← f64 (q + 1 / 2)
  castU8 q

/-- conversion.c:664-733: the colour of an output pixel with the area filter.  The computations
for the two axes, interleaved in the source, are independent. -/
def areaPixel (width height : Nat) (rx ry : ℚ) (d : List UInt8) (out_x out_y : Nat) :
    CM (UInt8 × UInt8 × UInt8) := do
  let (x_start, x_end, ix_start, ix_end) ← resizeWindow width rx out_x
  let (y_start, y_end, iy_start, iy_end) ← resizeWindow height ry out_y
  let a ← forN (iy_end - iy_start).toNat ⟨0, 0, 0, 0⟩ fun j a =>
    forN (ix_end - ix_start).toNat a fun i a =>
      resizeTap width d x_start x_end y_start y_end (iy_start + j) (ix_start + i) a
  if a.w > 0 then do
    let r ← resizeByte a.r a.w
    let g ← resizeByte a.g a.w
    let b ← resizeByte a.b a.w
    pure (r, g, b)
  else pure (0, 0, 0)

/-- conversion.c:737-772 for one axis: the two neighbours and the fraction. -/
def resizeFrac (n : Nat) (r : ℚ) (o : Nat) : CM (Int × Int × ℚ) := do
  let src ← resizeCoord r o
  let i0 ← castI32 (⌊src⌋ : ℤ)
  let i1 ← i32 (i0 + 1)
  let i0 := if i0 < 0 then 0 else i0
  let i1 := if i1 ≥ i32OfU32 n then i32OfU32 (u32sub n 1) else i1
  let df ← f64 (src - i0)
  let df := if df < 0 then 0 else df
  let df := if df > 1 then 1 else df
  pure (i0, i1, df)

/-- conversion.c:775-785: one channel by bilinear interpolation. -/
def bilinearByte (width : Nat) (d : List UInt8) (x0 x1 y0 y1 : Int) (dx dy : ℚ) (c : Nat) :
    CM UInt8 := do
  let at_ := fun (y x : Int) => rdIn d (u32 (u32 (u32 (u32OfInt y * width + u32OfInt x) * 4) + c))
  let p00 ← at_ y0 x0
  let p01 ← at_ y0 x1
  let p10 ← at_ y1 x0
  let p11 ← at_ y1 x1
  let mx ← f64 (1 - dx)
  let my ← f64 (1 - dy)
  let t00 ← f64 ((← f64 (p00.toNat * mx)) * my)
  let t01 ← f64 ((← f64 (p01.toNat * dx)) * my)
  let t10 ← f64 ((← f64 (p10.toNat * mx)) * dy)
  let t11 ← f64 ((← f64 (p11.toNat * dx)) * dy)
  let s ← f64 (t00 + t01)
  let s ← f64 (s + t10)
  let s ← f64 (s + t11)
  let s ← f64 (s + 1 / 2)
  castU8 s

/-- conversion.c:737-786. -/
def bilinearPixel (width height : Nat) (rx ry : ℚ) (d : List UInt8) (out_x out_y : Nat) :
    CM (UInt8 × UInt8 × UInt8) := do
  let (x0, x1, dx) ← resizeFrac width rx out_x
  let (y0, y1, dy) ← resizeFrac height ry out_y
  let r ← bilinearByte width d x0 x1 y0 y1 dx dy 0
  let g ← bilinearByte width d x0 x1 y0 y1 dx dy 1
  let b ← bilinearByte width d x0 x1 y0 y1 dx dy 2
  pure (r, g, b)

/-- conversion.c:661-791. -/
def resizeLoop (width height ow oh : Nat) (rx ry : ℚ) (d : List UInt8) (out : Cells UInt8) :
    CM (Cells UInt8) :=
  forU32 oh out fun out_y out =>
    forU32 ow out fun out_x out => do
      let (r, g, b) ← (if rx < 1 ∨ ry < 1 then areaPixel width height rx ry d out_x out_y
        else bilinearPixel width height rx ry d out_x out_y)
      let k := u32 (u32 (out_y * ow + out_x) * 4)
      let out ← wr out k r
      let out ← wr out (u32 (k + 1)) g
      let out ← wr out (u32 (k + 2)) b
      wr out (u32 (k + 3)) 255

/-- conversion.c:634: `v > UINT32_MAX`, false for NaN. -/
def aboveU32 : Dbl → Bool
  | .nan => false
  | .inf neg => !neg
  | .fin q => decide (q > 4294967295)

/-- conversion.c:608-794.  The second result is what was stored through `out_width` and
`out_height`; NULL for those two pointers (617) is not modelled. -/
def fcv_resize (P : Plat) (width height : Nat) (resize_x resize_y : Dbl)
    (data : Option (List UInt8)) : HM (Option (Buf UInt8) × Option (Nat × Nat)) :=
  match data with
  | none => pure (none, none)
  | some d =>
    if width = 0 ∨ height = 0 then pure (none, none)
    else match resize_x, resize_y with
    | .fin rx, .fin ry =>
      if rx ≤ 0 ∨ ry ≤ 0 then pure (none, none)
      else
        let new_width_d := Dbl.mul Fmt.b64 (.fin width) (.fin rx)
        let new_height_d := Dbl.mul Fmt.b64 (.fin height) (.fin ry)
        if aboveU32 new_width_d || aboveU32 new_height_d then pure (none, none)
        else do
          let ow ← use [] new_width_d.toU32
          let oh ← use [] new_height_d.toU32
          if ow = 0 ∨ oh = 0 then pure (none, some (ow, oh))
          else if ow > P.szMax / oh then pure (none, some (ow, oh))
          else
            let out_img_pixels := P.sz (ow * oh)
            if out_img_pixels > P.szMax / 4 then pure (none, some (ow, oh))
            else do
              match ← malloc UInt8 (P.sz (out_img_pixels * 4)) with
              | none => pure (none, some (ow, oh))
              | some b => do
                let c ← use [b.id] (resizeLoop width height ow oh rx ry d b.cells)
                pure (some { b with cells := c }, some (ow, oh))
    | _, _ => pure (none, none)

end FlatCV.Model
