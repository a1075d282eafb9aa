/-
Model of the EXIF orientation step of `main` (`src/cli.c`).
-/
import Verif.Model.Geometry

namespace FlatCV.Model

/-- The switch cli.c:1569-1599: the transformed image and the dimensions used from then on. -/
def orientPick (P : Plat) (orientation : Int) (width height : Nat) (d : List UInt8) :
    HM (Option (Buf UInt8) × Nat × Nat) :=
  match orientation with
  | 2 => do let b ← fcv_flip_x P width height (some d); pure (b, width, height)
  | 3 => do let b ← fcv_rotate_180 P width height (some d); pure (b, width, height)
  | 4 => do let b ← fcv_flip_y P width height (some d); pure (b, width, height)
  | 5 => do let b ← fcv_transpose P width height (some d); pure (b, height, width)
  | 6 => do let b ← fcv_rotate_90_cw P width height (some d); pure (b, height, width)
  | 7 => do let b ← fcv_transverse P width height (some d); pure (b, height, width)
  | 8 => do let b ← fcv_rotate_270_cw P width height (some d); pure (b, height, width)
  | _ => pure (none, width, height)

/-- cli.c:1563-1606.  `image_data` is the block returned by the image loader, of `width × height`
RGBA pixels; the dimensions are positive `int32_t` values.  The result is the block and the
dimensions used from then on.  Not modelled: the test of the file extension (1559-1561), which
decides whether this step runs, and the messages. -/
def orientImage (P : Plat) (orientation : Int) (width height : Nat) (image_data : Buf UInt8) :
    HM (Buf UInt8 × Nat × Nat) := do
  if orientation > 1 ∧ orientation ≤ 8 then do
    let d ← use [image_data.id] (asInput image_data.cells)
    let r ← orientPick P orientation width height d
    match r.1 with
    | some b => do
      free image_data.id
      pure (b, r.2)
    | none => pure (image_data, r.2)
  else pure (image_data, width, height)

end FlatCV.Model
