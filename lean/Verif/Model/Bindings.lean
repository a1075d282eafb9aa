/-
Model of the Haskell bindings, `bindings/flatcv-hs/src/FlatCV.hs`, on top of the model of the C library.

A `Vector Word8` given by the caller is a list of bytes; it is never NULL.  A vector made from a block of the C library is the
block together with the length the binding claims.  `alloca` and `withCString` use memory of the Haskell run-time, which is
released with the call; only `mallocBytes` and the C functions use the C heap.  A call that raises a Haskell exception returns
`none`.  Text is taken to be ASCII; `withCString` then passes the characters before the first NUL.  The marshalling code that
c2hs generates from `FlatCV/Raw.chs` is taken to pass numbers of equal type unchanged.  `prettyShow…`, `getExifOrientation`
(which only passes on a file name) and the functions ending in `Ptr` (which are the C functions) are not modelled.
-/
import Verif.Model.Blur
import Verif.Model.BwSmart
import Verif.Model.Color
import Verif.Model.Draw
import Verif.Model.Extract
import Verif.Model.Foerstner
import Verif.Model.Geometry
import Verif.Model.Gray
import Verif.Model.Histogram
import Verif.Model.Morph
import Verif.Model.Otsu
import Verif.Model.Resize
import Verif.Model.Sobel
import Verif.Model.Trim
import Verif.Model.Watershed

namespace FlatCV.Model.Hs

/-- FlatCV.hs:275-278: a vector over a block of the C heap; the block is released by a finalizer when the vector is collected. -/
structure Vec where
  block : Buf UInt8
  len : Int

/-- Reading element `i` of a vector looks into the block, whatever its size. -/
def Vec.read (v : Vec) (i : Nat) : CM UInt8 := rd v.block.cells i

/-- The finalizer, FlatCV.hs:272. -/
def Vec.collect (v : Vec) : HM Unit := free v.block.id

/-- FlatCV.hs:275-278 `makeVector`. -/
def makeVector (b : Buf UInt8) (len : Int) : Vec := ⟨b, len⟩

/-- FlatCV.hs:281-286 `withImageData`; the length is a `Word32`. -/
def withImageData (call : HM (Option (Buf UInt8))) (len : Nat) : HM (Option Vec) := do
  match ← call with
  | none => pure none
  | some b => pure (some (makeVector b len))

/-- FlatCV.hs:428-437 and the like: a call that stores a size, which is read back; `ch` is the factor in the length. -/
def withSize (call : HM (Option (Buf UInt8) × Option (Nat × Nat))) (ch : Nat) : HM (Option (Nat × Nat × Vec)) := do
  let r ← call
  match r.1 with
  | none => pure none
  | some b =>
    match r.2 with
    | none => hfault .uninitRead
    | some (w, h) => pure (some (w, h, makeVector b (u32 (w * h * ch))))

/-- A product of `Int32`s. -/
def wrap32 (z : Int) : Int := i32OfU32 (u32OfInt z)

/-- `withCString` of ASCII text. -/
def cstring (t : List Char) : List Char := t.takeWhile (· ≠ '\x00')

/-- FlatCV.hs:293-295. -/
def grayscale (P : Plat) (w h : Nat) (d : List UInt8) : HM (Option Vec) :=
  withImageData (fcv_grayscale P w h (some d)) (u32 (w * h * 4))

/-- FlatCV.hs:298-300. -/
def grayscaleStretch (P : Plat) (w h : Nat) (d : List UInt8) : HM (Option Vec) :=
  withImageData (fcv_grayscale_stretch P w h (some d)) (u32 (w * h * 4))

/-- FlatCV.hs:303-305. -/
def rgbaToGrayscale (P : Plat) (w h : Nat) (d : List UInt8) : HM (Option Vec) :=
  withImageData (fcv_rgba_to_grayscale P w h (some d)) (u32 (w * h))

/-- FlatCV.hs:308-310. -/
def singleToMultichannel (P : Plat) (w h : Nat) (d : List UInt8) : HM (Option Vec) :=
  withImageData (fcv_single_to_multichannel P w h (some d)) (u32 (w * h * 4))

/-- FlatCV.hs:317-319. -/
def gaussianBlur (P : Plat) (M : MathLib) (w h : Nat) (radius : Dbl) (d : List UInt8) : HM (Option Vec) :=
  withImageData (fcv_apply_gaussian_blur P M.ex w h radius (some d)) (u32 (w * h * 4))

/-- FlatCV.hs:327-329. -/
def otsuThreshold (P : Plat) (w h : Nat) (useDouble : Bool) (d : List UInt8) : HM (Option Vec) :=
  withImageData (fcv_otsu_threshold_rgba P w h useDouble (some d)) (u32 (w * h * 4))

/-- FlatCV.hs:332-334. -/
def bwSmart (P : Plat) (M : MathLib) (w h : Nat) (useDouble : Bool) (d : List UInt8) : HM (Option Vec) :=
  withImageData (fcv_bw_smart P M.ex w h useDouble (some d)) (u32 (w * h * 4))

/-- FlatCV.hs:337-342: works on a copy of the vector. -/
def applyGlobalThreshold (imgLen : Nat) (threshold : UInt8) (d : List UInt8) : CM (Cells UInt8) :=
  fcv_apply_global_threshold imgLen (d.map some) threshold

/-- FlatCV.hs:349-351. -/
def sobelEdgeDetection (P : Plat) (w h ch : Nat) (d : List UInt8) : HM (Option Vec) :=
  withImageData (fcv_sobel_edge_detection P w h ch (some d)) (u32 (w * h * ch))

/-- FlatCV.hs:354-356. -/
def foerstnerCorner (P : Plat) (w h : Nat) (sigma : Dbl) (d : List UInt8) : HM (Option Vec) :=
  withImageData (fcv_foerstner_corner P w h (some d) sigma) (u32 (w * h * 4))

/-- FlatCV.hs:363-366. -/
def binaryDilationDisk (P : Plat) (w h r : Int) (d : List UInt8) : HM (Option Vec) :=
  withImageData (fcv_binary_dilation_disk P (some d) w h r) (u32OfInt (wrap32 (w * h * 4)))

/-- FlatCV.hs:369-372. -/
def binaryErosionDisk (P : Plat) (w h r : Int) (d : List UInt8) : HM (Option Vec) :=
  withImageData (fcv_binary_erosion_disk P (some d) w h r) (u32OfInt (wrap32 (w * h * 4)))

/-- FlatCV.hs:375-378. -/
def binaryClosingDisk (P : Plat) (w h r : Int) (d : List UInt8) : HM (Option Vec) :=
  withImageData (fcv_binary_closing_disk P (some d) w h r) (u32OfInt (wrap32 (w * h * 4)))

/-- FlatCV.hs:381-384. -/
def binaryOpeningDisk (P : Plat) (w h r : Int) (d : List UInt8) : HM (Option Vec) :=
  withImageData (fcv_binary_opening_disk P (some d) w h r) (u32OfInt (wrap32 (w * h * 4)))

/-- FlatCV.hs:391-393. -/
def flipX (P : Plat) (w h : Nat) (d : List UInt8) : HM (Option Vec) :=
  withImageData (fcv_flip_x P w h (some d)) (u32 (w * h * 4))

/-- FlatCV.hs:396-398. -/
def flipY (P : Plat) (w h : Nat) (d : List UInt8) : HM (Option Vec) :=
  withImageData (fcv_flip_y P w h (some d)) (u32 (w * h * 4))

/-- FlatCV.hs:401-403. -/
def transpose (P : Plat) (w h : Nat) (d : List UInt8) : HM (Option Vec) :=
  withImageData (fcv_transpose P w h (some d)) (u32 (w * h * 4))

/-- FlatCV.hs:406-408. -/
def transverse (P : Plat) (w h : Nat) (d : List UInt8) : HM (Option Vec) :=
  withImageData (fcv_transverse P w h (some d)) (u32 (w * h * 4))

/-- FlatCV.hs:411-413. -/
def rotate90CW (P : Plat) (w h : Nat) (d : List UInt8) : HM (Option Vec) :=
  withImageData (fcv_rotate_90_cw P w h (some d)) (u32 (w * h * 4))

/-- FlatCV.hs:416-418. -/
def rotate180 (P : Plat) (w h : Nat) (d : List UInt8) : HM (Option Vec) :=
  withImageData (fcv_rotate_180 P w h (some d)) (u32 (w * h * 4))

/-- FlatCV.hs:421-423. -/
def rotate270CW (P : Plat) (w h : Nat) (d : List UInt8) : HM (Option Vec) :=
  withImageData (fcv_rotate_270_cw P w h (some d)) (u32 (w * h * 4))

/-- FlatCV.hs:427-437. -/
def resize (P : Plat) (w h : Nat) (scaleX scaleY : Dbl) (d : List UInt8) : HM (Option (Nat × Nat × Vec)) :=
  withSize (fcv_resize P w h scaleX scaleY (some d)) 4

/-- FlatCV.hs:444-447. -/
def crop (P : Plat) (w h ch x y newWidth newHeight : Nat) (d : List UInt8) : HM (Option Vec) :=
  withImageData (fcv_crop P w h ch (some d) x y newWidth newHeight) (u32 (newWidth * newHeight * ch))

/-- FlatCV.hs:452-463, 468-479: the size is passed in and read back; `fromIntegral channels` is an `Int32`. -/
def trimmed (call : HM (Option (Buf UInt8) × Int × Int)) (ch : Nat) : HM (Option (Int × Int × Vec)) := do
  let r ← call
  match r.1 with
  | none => pure none
  | some b => pure (some (r.2.1, r.2.2, makeVector b (wrap32 (r.2.1 * r.2.2 * ch))))

/-- FlatCV.hs:451-463. -/
def trim (P : Plat) (w h : Int) (ch : Nat) (d : List UInt8) : HM (Option (Int × Int × Vec)) :=
  trimmed (fcv_trim P w h ch (some d)) ch

/-- FlatCV.hs:467-479. -/
def trimThreshold (P : Plat) (w h : Int) (ch : Nat) (t : Dbl) (d : List UInt8) : HM (Option (Int × Int × Vec)) :=
  trimmed (fcv_trim_threshold P w h ch (some d) t) ch

/-- FlatCV.hs:486-496.  The matrix is copied and then released, even if it is the static one of the C function.  (That function
never returns NULL.) -/
def calculatePerspectiveTransform (src dst : Corners Dbl) : HM (Mat Dbl) := do
  match ← fcv_calculate_perspective_transform Arith.dbl (some src) (some dst) with
  | .static => freeStatic
  | .heap id m => do
    free id
    pure m

/-- FlatCV.hs:499-503. -/
def applyMatrix3x3 (P : Plat) (inW inH outW outH : Int) (m : Mat Dbl) (d : List UInt8) : HM (Option Vec) :=
  withImageData (do
    let r ← fcv_apply_matrix_3x3 P inW inH (some d) outW outH (some m)
    pure r.1) (u32OfInt (wrap32 (outW * outH * 4)))

/-- FlatCV.hs:507-514. -/
def detectCorners (P : Plat) (M : MathLib) (w h : Int) (d : List UInt8) : HM (Option (Corners Dbl)) := do
  match ← fcv_detect_corners_ptr P M (some d) w h with
  | none => pure none
  | some (id, c) => do
    free id
    pure (some c)

/-- FlatCV.hs:521-524. -/
def extractDocument (P : Plat) (M : MathLib) (w h ow oh : Nat) (d : List UInt8) : HM (Option Vec) :=
  withImageData (fcv_extract_document P M w h (some d) ow oh) (u32 (ow * oh * 4))

/-- FlatCV.hs:528-538. -/
def extractDocumentAuto (P : Plat) (M : MathLib) (w h : Nat) (d : List UInt8) : HM (Option (Nat × Nat × Vec)) :=
  withSize (fcv_extract_document_auto P M w h (some d)) 4

/-- FlatCV.hs:545-551: works on a copy of the vector. -/
def drawCircle (P : Plat) (w h ch : Nat) (hex : List Char) (r cx cy : Dbl) (d : List UInt8) : CM (List UInt8) :=
  fcv_draw_circle P w h ch (some (cstring hex)) r cx cy d

/-- FlatCV.hs:554-560: works on a copy of the vector. -/
def drawDisk (P : Plat) (w h ch : Nat) (hex : List Char) (r cx cy : Dbl) (d : List UInt8) : CM (List UInt8) :=
  fcv_draw_disk P w h ch (some (cstring hex)) r cx cy d

/-- FlatCV.hs:564-575. -/
def addBorder (P : Plat) (w h ch : Nat) (hex : List Char) (bw : Nat) (d : List UInt8) : HM (Option (Nat × Nat × Vec)) :=
  withSize (fcv_add_border P w h ch (some (cstring hex)) bw (some d)) ch

/-- FlatCV.hs:583-593. -/
def generateHistogram (P : Plat) (w h ch : Nat) (d : List UInt8) : HM (Option (Nat × Nat × Vec)) :=
  withSize (fcv_generate_histogram P w h ch (some d)) 4

/-- FlatCV.hs:600-610.  The markers are stored in a block of the C heap, which is released if the call succeeds; the exception of
`withImageData` skips the `free`.  `mallocBytes` raises an exception of its own. -/
def watershedSegmentation (P : Plat) (w h : Nat) (ms : List (Dbl × Dbl)) (bd : Bool) (d : List UInt8) : HM (Option Vec) := do
  match ← malloc (Dbl × Dbl) ms.length with
  | none => pure none
  | some p => do
    match ← withImageData (fcv_watershed_segmentation P w h (some d) (some ms) (u32 ms.length) bd) (u32 (w * h * 4)) with
    | none => pure none
    | some v => do
      free p.id
      pure (some v)

/-- FlatCV.hs:627-637. -/
def parseHexColor (hex : List Char) : UInt8 × UInt8 × UInt8 := fcv_parse_hex_color (cstring hex)

/-- FlatCV.hs:640-645. -/
def convertToBinary (P : Plat) (w h : Int) (fg bg : List Char) (d : List UInt8) : HM (Option Vec) :=
  withImageData (fcv_convert_to_binary P (some d) w h (some (cstring fg)) (some (cstring bg))) (u32OfInt (wrap32 (w * h * 4)))

/-! ### Records in memory

`Storable` instances, FlatCV.hs:173-182, 196-217, 238-261.  A record in memory is a list of doubles; the double at byte offset
`8k` is element `k`. -/

/-- `pokeByteOff ptr off v`. -/
def pokeOff (mem : Cells Dbl) (off : Nat) (v : Dbl) : CM (Cells Dbl) := wr mem (off / 8) v

/-- `peekByteOff ptr off`. -/
def peekOff (mem : Cells Dbl) (off : Nat) : CM Dbl := rd mem (off / 8)

/-- FlatCV.hs:209-217. -/
def pokeCorners (mem : Cells Dbl) (c : Corners Dbl) : CM (Cells Dbl) := do
  let mem ← pokeOff mem 0 c.tl_x
  let mem ← pokeOff mem 8 c.tl_y
  let mem ← pokeOff mem 16 c.tr_x
  let mem ← pokeOff mem 24 c.tr_y
  let mem ← pokeOff mem 32 c.br_x
  let mem ← pokeOff mem 40 c.br_y
  let mem ← pokeOff mem 48 c.bl_x
  pokeOff mem 56 c.bl_y

/-- FlatCV.hs:199-208. -/
def peekCorners (mem : Cells Dbl) : CM (Corners Dbl) := do
  let tl_x ← peekOff mem 0
  let tl_y ← peekOff mem 8
  let tr_x ← peekOff mem 16
  let tr_y ← peekOff mem 24
  let br_x ← peekOff mem 32
  let br_y ← peekOff mem 40
  let bl_x ← peekOff mem 48
  let bl_y ← peekOff mem 56
  pure ⟨tl_x, tl_y, tr_x, tr_y, br_x, br_y, bl_x, bl_y⟩

/-- FlatCV.hs:252-261. -/
def pokeMatrix (mem : Cells Dbl) (m : Mat Dbl) : CM (Cells Dbl) := do
  let mem ← pokeOff mem 0 m.m00
  let mem ← pokeOff mem 8 m.m01
  let mem ← pokeOff mem 16 m.m02
  let mem ← pokeOff mem 24 m.m10
  let mem ← pokeOff mem 32 m.m11
  let mem ← pokeOff mem 40 m.m12
  let mem ← pokeOff mem 48 m.m20
  let mem ← pokeOff mem 56 m.m21
  pokeOff mem 64 m.m22

/-- FlatCV.hs:241-251. -/
def peekMatrix (mem : Cells Dbl) : CM (Mat Dbl) := do
  let m00 ← peekOff mem 0
  let m01 ← peekOff mem 8
  let m02 ← peekOff mem 16
  let m10 ← peekOff mem 24
  let m11 ← peekOff mem 32
  let m12 ← peekOff mem 40
  let m20 ← peekOff mem 48
  let m21 ← peekOff mem 56
  let m22 ← peekOff mem 64
  pure ⟨m00, m01, m02, m10, m11, m12, m20, m21, m22⟩

/-- FlatCV.hs:180-182 and `pokeArray`: consecutive points of 16 bytes. -/
def pokePoints (mem : Cells Dbl) (ms : List (Dbl × Dbl)) : CM (Cells Dbl) :=
  (ms.zipIdx).foldlM (fun mem p => do
    let mem ← pokeOff mem (16 * p.2 + 0) p.1.1
    pokeOff mem (16 * p.2 + 8) p.1.2) mem

end FlatCV.Model.Hs
