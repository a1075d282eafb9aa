/-
Model of `src/binary_closing_disk.c`.

All coordinates are `int32_t`; every operation that can overflow is checked.
The disk test (51-52, 108-109) compares the `int` value `dx*dx + dy*dy` with the double
`r_eff*r_eff`, `r_eff = radius + 0.5`.  The overflow check faults for `radius ≥ 32768`; below
that bound `r_eff*r_eff = radius² + radius + 1/4` is exact in binary64, and an integer is at most
that exactly when it is at most `radius² + radius`.
-/
import Verif.Core.Mem

namespace FlatCV.Model

/-- `y * width + x` in `int32_t` (e.g. binary_closing_disk.c:43). -/
def idx32 (y width x : Int) : CM Int := do
  let a ← i32 (y * width)
  i32 (a + x)

/-- binary_closing_disk.c:51-52 / 108-109: is `(dx, dy)` in the disk?  Checked `int` squares. -/
def inDisk (radius dx dy : Int) : CM Bool := do
  let a ← i32 (dx * dx)
  let b ← i32 (dy * dy)
  let s ← i32 (a + b)
  pure (decide (s ≤ radius * radius + radius))

/-- binary_closing_disk.c:53-61: paint one neighbour. -/
def dilateAt (width height x y dx dy : Int) (out : Cells UInt8) : CM (Cells UInt8) := do
  let ny ← i32 (y + dy)
  let nx ← i32 (x + dx)
  if ny ≥ 0 ∧ ny < height ∧ nx ≥ 0 ∧ nx < width then do
    let nidx ← idx32 ny width nx
    wrZ out nidx 255
  else pure out

/-- The loops `for (dy = -radius; dy <= radius; dy++)` are counted loops with
`dy = k - radius`, `0 ≤ k ≤ 2*radius`.  binary_closing_disk.c:16-70. -/
def fcv_binary_dilation_disk (P : Plat) (image_data : Option (List UInt8))
    (width height radius : Int) : HM (Option (Buf UInt8)) :=
  match image_data with
  | none => pure none
  | some d =>
    if width ≤ 0 ∨ height ≤ 0 ∨ radius < 0 then pure none
    else if width.toNat > P.szMax / height.toNat then pure none
    else
      let num_pixels := P.sz (width.toNat * height.toNat)
      allocFill num_pixels fun out => do
        let out ← memset out num_pixels 0
        forN height.toNat out fun y out => forN width.toNat out fun x out => do
          let idx ← idx32 y width x
          let p ← rdInZ d idx
          if p = 255 then
            forN (2 * radius.toNat + 1) out fun ky out =>
              forN (2 * radius.toNat + 1) out fun kx out => do
                let dy : Int := ky - radius
                let dx : Int := kx - radius
                let inside ← inDisk radius dx dy
                if inside then dilateAt width height x y dx dy out else pure out
          else pure out

/-- binary_closing_disk.c:110-132: the value of one neighbour, outside the image clamped
(`replicate_border`) or black. -/
def neighbour (d : List UInt8) (width height x y dx dy : Int) (replicate_border : Bool) :
    CM UInt8 := do
  let ny ← i32 (y + dy)
  let nx ← i32 (x + dx)
  if ny < 0 ∨ ny ≥ height ∨ nx < 0 ∨ nx ≥ width then
    if replicate_border then do
      let cy := if ny < 0 then 0 else if ny ≥ height then height - 1 else ny
      let cx := if nx < 0 then 0 else if nx ≥ width then width - 1 else nx
      rdInZ d (← idx32 cy width cx)
    else pure 0
  else do
    rdInZ d (← idx32 ny width nx)

/-- binary_closing_disk.c:101-138: the two early-exit loops computing `can_erode`. -/
def canErode (d : List UInt8) (width height radius x y : Int) (replicate_border : Bool) :
    CM Bool :=
  forBreak (2 * radius.toNat + 1) 0 true fun ky _ => do
    let can ← forBreak (2 * radius.toNat + 1) 0 true fun kx _ => do
      let dy : Int := ky - radius
      let dx : Int := kx - radius
      let inside ← inDisk radius dx dy
      if inside then do
        let v ← neighbour d width height x y dx dy replicate_border
        pure (decide (v = 255), decide (v ≠ 255))
      else pure (true, false)
    pure (can, !can)

/-- binary_closing_disk.c:72-148. -/
def binary_erosion_disk_internal (P : Plat) (image_data : Option (List UInt8))
    (width height radius : Int) (replicate_border : Bool) : HM (Option (Buf UInt8)) :=
  match image_data with
  | none => pure none
  | some d =>
    if width ≤ 0 ∨ height ≤ 0 ∨ radius < 0 then pure none
    else if width.toNat > P.szMax / height.toNat then pure none
    else
      let num_pixels := P.sz (width.toNat * height.toNat)
      allocFill num_pixels fun out => do
        let out ← memset out num_pixels 0
        forN height.toNat out fun y out => forN width.toNat out fun x out => do
          let idx ← idx32 y width x
          let can ← canErode d width height radius x y replicate_border
          if can then wrZ out idx 255 else pure out

/-- binary_closing_disk.c:150-158. -/
def fcv_binary_erosion_disk (P : Plat) (image_data : Option (List UInt8))
    (width height radius : Int) : HM (Option (Buf UInt8)) :=
  binary_erosion_disk_internal P image_data width height radius false

/-- binary_closing_disk.c:160-189. -/
def fcv_binary_closing_disk (P : Plat) (image_data : Option (List UInt8))
    (width height radius : Int) : HM (Option (Buf UInt8)) :=
  match image_data with
  | none => pure none
  | some d =>
    if width ≤ 0 ∨ height ≤ 0 ∨ radius < 0 then pure none
    else
      callThenFree (fcv_binary_dilation_disk P (some d) width height radius) fun e =>
        binary_erosion_disk_internal P (some e) width height radius true

/-- binary_closing_disk.c:191-214. -/
def fcv_binary_opening_disk (P : Plat) (image_data : Option (List UInt8))
    (width height radius : Int) : HM (Option (Buf UInt8)) :=
  match image_data with
  | none => pure none
  | some d =>
    if width ≤ 0 ∨ height ≤ 0 ∨ radius < 0 then pure none
    else
      callThenFree (fcv_binary_erosion_disk P (some d) width height radius) fun e =>
        fcv_binary_dilation_disk P (some e) width height radius

end FlatCV.Model
