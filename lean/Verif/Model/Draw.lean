/-
Model of `src/draw.c`.
-/
import Verif.Model.Color
import Verif.Core.Float

namespace FlatCV.Model

/-- A `double` literal. -/
def dlit (q : ℚ) : ℚ := Fmt.b64.rnd q

/-- `(uint8_t)(0.299 * r + 0.587 * g + 0.114 * b)`, draw.c:41 and 326. -/
def drawLuma (r g b : UInt8) : CM UInt8 := do
  let x ← f64 (dlit (299 / 1000) * (r.toNat : ℚ))
  let y ← f64 (dlit (587 / 1000) * (g.toNat : ℚ))
  let z ← f64 (dlit (114 / 1000) * (b.toNat : ℚ))
  let s ← f64 (x + y)
  let s ← f64 (s + z)
  castU8 s

/-- draw.c:21-51. -/
def fcv_set_circle_pixel (P : Plat) (width height channels : Nat) (px py : Int)
    (col : UInt8 × UInt8 × UInt8) (data : List UInt8) : CM (List UInt8) :=
  if width = 0 ∨ height = 0 ∨ channels = 0 then pure data
  else if px ≥ 0 ∧ px < i32OfU32 width ∧ py ≥ 0 ∧ py < i32OfU32 height then do
    let pixel_index := P.sz (P.sz (P.sz (py.toNat * width) + px.toNat) * channels)
    if channels = 1 then do
      let v ← drawLuma col.1 col.2.1 col.2.2
      wrIn data pixel_index v
    else if channels ≥ 3 then do
      let data ← wrIn data pixel_index col.1
      let data ← wrIn data (P.sz (pixel_index + 1)) col.2.1
      let data ← wrIn data (P.sz (pixel_index + 2)) col.2.2
      if channels = 4 then wrIn data (P.sz (pixel_index + 3)) 255 else pure data
    else pure data
  else pure data

/-- draw.c:56-77. -/
def fcv_draw_circle_points (P : Plat) (width height channels : Nat) (cx cy : Int)
    (col : UInt8 × UInt8 × UInt8) (x y : Int) (data : List UInt8) : CM (List UInt8) := do
  let set := fcv_set_circle_pixel P width height channels
  let data ← set (← i32 (cx + x)) (← i32 (cy + y)) col data
  let data ← set (← i32 (cx - x)) (← i32 (cy + y)) col data
  let data ← set (← i32 (cx + x)) (← i32 (cy - y)) col data
  let data ← set (← i32 (cx - x)) (← i32 (cy - y)) col data
  let data ← set (← i32 (cx + y)) (← i32 (cy + x)) col data
  let data ← set (← i32 (cx - y)) (← i32 (cy + x)) col data
  let data ← set (← i32 (cx + y)) (← i32 (cy - x)) col data
  set (← i32 (cx - y)) (← i32 (cy - x)) col data

/-- draw.c:95-98 and 103-106: `for (i = c - a; i <= c + a; i++)`, colouring `(i, cy + v)` and
`(i, cy - v)`.  The bounds are evaluated in `int32_t`, also the final `i++`. -/
def fillLine (P : Plat) (width height channels : Nat) (col : UInt8 × UInt8 × UInt8)
    (cx cy a v : Int) (data : List UInt8) : CM (List UInt8) := do
  let lo ← i32 (cx - a)
  let hi ← i32 (cx + a)
  forN (hi - lo + 1).toNat data fun k data => do
    let i := lo + k
    let data ← fcv_set_circle_pixel P width height channels i (← i32 (cy + v)) col data
    let data ← fcv_set_circle_pixel P width height channels i (← i32 (cy - v)) col data
    let _ ← i32 (i + 1)
    pure data

/-- draw.c:82-109. -/
def fcv_fill_disk_lines (P : Plat) (width height channels : Nat) (cx cy : Int)
    (col : UInt8 × UInt8 × UInt8) (x y : Int) (data : List UInt8) : CM (List UInt8) := do
  let data ← fillLine P width height channels col cx cy x y data
  if x ≠ y then fillLine P width height channels col cx cy y x data
  else pure data

/-- draw.c:162-170 and 242-250: one step of the circle algorithm. -/
def bresStep (x y d : Int) : CM (Int × Int × Int) := do
  let x ← i32 (x + 1)
  if d > 0 then do
    let y ← i32 (y - 1)
    let t ← i32 (x - y)
    let t ← i32 (4 * t)
    let d ← i32 (d + t)
    let d ← i32 (d + 10)
    pure (x, y, d)
  else do
    let t ← i32 (4 * x)
    let d ← i32 (d + t)
    let d ← i32 (d + 6)
    pure (x, y, d)

/-- draw.c:153-188 and 233-256: the loop, with the drawing function as a parameter. -/
def bresenham (radius : Int) (stamp : Int → Int → List UInt8 → CM (List UInt8))
    (data : List UInt8) : CM (List UInt8) := do
  let t ← i32 (2 * radius)
  let d ← i32 (3 - t)
  let data ← stamp 0 radius data
  let (_, _, _, data) ← whileFuel (radius.toNat + 2) ((0 : Int), radius, d, data)
    fun (x, y, d, data) =>
      if y ≥ x then do
        let (x, y, d) ← bresStep x y d
        let data ← stamp x y data
        pure ((x, y, d, data), false)
      else pure ((x, y, d, data), true)
  pure data

/-- The common frame of draw.c:125-189 and 205-257: argument checks, conversions, the algorithm.
NULL `data`/`hex_color` (135, 215) return at once; here they are not `Option`s except for the
colour, a NULL image has nothing to modify. -/
def drawShape (width height channels : Nat) (hex_color : Option (List Char))
    (radius center_x center_y : Dbl)
    (stamp : Int → Int → UInt8 × UInt8 × UInt8 → Int → Int → List UInt8 → CM (List UInt8))
    (data : List UInt8) : CM (List UInt8) :=
  match hex_color with
  | none => pure data
  | some hex =>
    if width = 0 ∨ height = 0 ∨ channels = 0 then pure data
    else match radius, center_x, center_y with
      | .fin radius, .fin center_x, .fin center_y =>
        if radius < 0 then pure data
        else if radius > 1073741823 then pure data
        else do
          let col := fcv_parse_hex_color hex
          let radius_int32_t ← castI32 radius
          let cx ← castI32 center_x
          let cy ← castI32 center_y
          bresenham radius_int32_t (stamp cx cy col) data
      | _, _, _ => pure data

/-- draw.c:125-189. -/
def fcv_draw_circle (P : Plat) (width height channels : Nat) (hex_color : Option (List Char))
    (radius center_x center_y : Dbl) (data : List UInt8) : CM (List UInt8) :=
  drawShape width height channels hex_color radius center_x center_y
    (fun cx cy col x y data => fcv_draw_circle_points P width height channels cx cy col x y data)
    data

/-- draw.c:205-257. -/
def fcv_draw_disk (P : Plat) (width height channels : Nat) (hex_color : Option (List Char))
    (radius center_x center_y : Dbl) (data : List UInt8) : CM (List UInt8) :=
  drawShape width height channels hex_color radius center_x center_y
    (fun cx cy col x y data => fcv_fill_disk_lines P width height channels cx cy col x y data)
    data

/-- draw.c:322-336: one border pixel. -/
def borderPixel (channels : Nat) (col : UInt8 × UInt8 × UInt8) (pixel_index : Nat)
    (out : Cells UInt8) : CM (Cells UInt8) :=
  if channels = 1 then do
    let v ← drawLuma col.1 col.2.1 col.2.2
    wr out pixel_index v
  else if channels ≥ 3 then do
    let out ← wr out pixel_index col.1
    let out ← wr out (u32 (pixel_index + 1)) col.2.1
    let out ← wr out (u32 (pixel_index + 2)) col.2.2
    if channels = 4 then wr out (u32 (pixel_index + 3)) 255 else pure out
  else pure out

/-- draw.c:273-356.  The second result is what was stored through `output_width` and
`output_height` (`none`: nothing stored).  NULL for those two pointers is not modelled. -/
def fcv_add_border (P : Plat) (width height channels : Nat) (hex_color : Option (List Char))
    (border_width : Nat) (input_data : Option (List UInt8)) :
    HM (Option (Buf UInt8) × Option (Nat × Nat)) :=
  match input_data, hex_color with
  | some d, some hex =>
    if border_width = 0 ∨ channels = 0 then pure (none, none)
    else if width = 0 ∨ height = 0 then pure (none, none)
    else if border_width > u32sub 4294967295 width / 2 ∨
        border_width > u32sub 4294967295 height / 2 then pure (none, none)
    else
      let col := fcv_parse_hex_color hex
      let ow := u32 (width + u32 (2 * border_width))
      let oh := u32 (height + u32 (2 * border_width))
      if ow > P.szMax / oh then pure (none, some (ow, oh))
      else
        let num_pixels := P.sz (ow * oh)
        if num_pixels > P.szMax / channels then pure (none, some (ow, oh))
        else do
          let r ← allocFill (P.sz (num_pixels * channels)) fun out => do
            let out ← forN oh out fun y out => forN ow out fun x out =>
              borderPixel channels col (u32 (u32 (u32 (y * ow) + x) * channels)) out
            forN height out fun y out => forN width out fun x out =>
              let src_index := u32 (u32 (u32 (y * width) + x) * channels)
              let dst_index := u32 (u32 (u32 (u32 (y + border_width) * ow)
                + u32 (x + border_width)) * channels)
              forN channels out fun c out => do
                let v ← rdIn d (u32 (src_index + c))
                wr out (u32 (dst_index + c)) v
          pure (r, some (ow, oh))
  | _, _ => pure (none, none)

end FlatCV.Model
