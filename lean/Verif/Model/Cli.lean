/-
Model of `apply_operation`, `execute_pipeline` and `main` of `src/cli.c`.  Messages are not modelled.
-/
import Verif.Model.CliParse
import Verif.Model.Extract
import Verif.Model.BwSmart
import Verif.Model.Trim
import Verif.Model.Histogram
import Verif.Model.Orient
import Verif.Model.Exif

namespace FlatCV.Model

/-- What an operation returns: the new image (or NULL) and the values of `*width` and `*height` afterwards. -/
abbrev OpResult := Option (Buf UInt8) × Int × Int

/-- `(int32_t)x` for a `double`. -/
def toI32 (x : Dbl) : CM Int := do castI32 (← finiteVal x)

/-- `(uint32_t)x` for a `double`. -/
def toU32 (x : Dbl) : CM Nat := do castU32 (← finiteVal x)

/-- A result of unchanged size. -/
def sameSize (w h : Int) (m : HM (Option (Buf UInt8))) : HM OpResult := do
  let r ← m
  pure (r, w, h)

/-- `if (result) { *width = ow; *height = oh; }` for a function that reports its size. -/
def newSize (w h : Int) (m : HM (Option (Buf UInt8) × Option (Nat × Nat))) : HM OpResult := do
  match ← m with
  | (some b, some (ow, oh)) => pure (some b, i32OfU32 ow, i32OfU32 oh)
  | (some _, none) => hfault .uninitRead
  | (none, _) => pure (none, w, h)

/-- `if (result) { *width = ow; *height = oh; }` for a size known before the call. -/
def givenSize (w h : Int) (ow oh : Nat) (m : HM (Option (Buf UInt8))) : HM OpResult := do
  match ← m with
  | some b => pure (some b, i32OfU32 ow, i32OfU32 oh)
  | none => pure (none, w, h)

/-- An `int32_t` converted to `size_t`. -/
def sizeOfInt (P : Plat) (z : Int) : Nat := (z % (P.mod : Int)).toNat

/-- `*width * *height * 4` in `int32_t`, converted to `size_t`. -/
def byteCount (P : Plat) (w h : Int) : CM Nat := do
  let a ← i32 (w * h)
  let b ← i32 (a * 4)
  pure (sizeOfInt P b)

/-- `malloc(n)` and `memcpy` of the image, if it succeeds. -/
def copyOf (n : Nat) (d : List UInt8) : HM (Option (Buf UInt8)) := do
  match ← malloc UInt8 n with
  | none => pure none
  | some b => do
    let c ← use [b.id] (memcpyIn b.cells 0 d 0 n)
    pure (some { b with cells := c })

/-- A copy of the image (of `n` bytes) on which `f` draws. -/
def drawOnCopy (n : Nat) (d : List UInt8) (f : List UInt8 → CM (List UInt8)) : HM (Option (Buf UInt8)) := do
  match ← copyOf n d with
  | none => pure none
  | some b => do
    let e ← use [b.id] (asInput b.cells >>= f)
    pure (some { b with cells := e.map some })

/-- cli.c:843-876: the factors given as text. -/
def textFactors (L : Lib) (w h : Int) (s : List Char) : CM (Option (Dbl × Dbl)) :=
  match cutAt 'x' s with
  | some (a, b) =>
    let first := trim_whitespace a
    let second := trim_whitespace b
    if '%' ∈ first then do
      let x ← Dbl.div Fmt.b64 (L.atof first) (.fin 100)
      let y ← Dbl.div Fmt.b64 (L.atof second) (.fin 100)
      pure (some (x, y))
    else do
      let x ← Dbl.div Fmt.b64 (L.atof first) (.fin w)
      let y ← Dbl.div Fmt.b64 (L.atof second) (.fin h)
      pure (some (x, y))
  | none =>
    if '%' ∈ s then do
      let x ← Dbl.div Fmt.b64 (L.atof s) (.fin 100)
      pure (some (x, x))
    else pure none

/-- cli.c:843-886: the factors. -/
def resizeFactors (L : Lib) (w h : Int) (op : PipelineOp) : HM (Option (Dbl × Dbl)) :=
  if op.has_string_param then do
    let copy ← strdup op.param_str
    let r ← use [copy] (textFactors L w h op.param_str)
    free copy
    pure r
  else if op.has_param then pure (some (op.param, if op.has_param2 then op.param2 else op.param))
  else pure none

/-- The double nearest to 0.02. -/
def dbl002 : ℚ := 5764607523034235 / 288230376151711744

/-- cli.c:955-961: the disks of `draw_corners`. -/
def drawCorners (P : Plat) (w h : Int) (k : Corners Dbl) (d : List UInt8) : CM (List UInt8) := do
  let radius := Dbl.mul Fmt.b64 (.fin (min w h : Int)) (.fin dbl002)
  let disk := fcv_draw_disk P (u32OfInt w) (u32OfInt h) 4 (some "FF0000".toList) radius
  let d ← disk k.tl_x k.tl_y d
  let d ← disk k.tr_x k.tr_y d
  let d ← disk k.br_x k.br_y d
  disk k.bl_x k.bl_y d

/-- cli.c:978-1048: circle and disk. -/
def shapeOnCopy (P : Plat) (w h : Int) (op : PipelineOp) (d : List UInt8)
    (draw : Option (List Char) → Dbl → Dbl → Dbl → List UInt8 → CM (List UInt8)) : HM OpResult :=
  if op.has_string_param ∧ op.has_param ∧ op.has_param2 ∧ op.has_param3 then do
    let copy ← strdup op.param_str
    let n ← use [] (byteCount P w h)
    let r ← drawOnCopy n d (draw (strtok ' ' op.param_str).head? op.param op.param2 op.param3)
    free copy
    pure (r, w, h)
  else pure (none, w, h)

/-- cli.c:1075-1088: the markers of watershed, written one after the other into the array; the number of markers. -/
def readMarkers (L : Lib) (n : Nat) : List (List Char) → Nat → Cells (Dbl × Dbl) → CM (Nat × Cells (Dbl × Dbl))
  | [], i, c => pure (i, c)
  | t :: ts, i, c =>
    if i < n then
      match cutAt 'x' t with
      | none => readMarkers L n ts i c
      | some (a, b) => do
        let c ← wr c i (L.atof (trim_whitespace a), L.atof (trim_whitespace b))
        readMarkers L n ts (i + 1) c
    else pure (i, c)

/-- cli.c:1049-1122: watershed.  The number of spaces is counted without overflow (the text has at most 63 characters). -/
def watershedOp (P : Plat) (L : Lib) (w h : Int) (op : PipelineOp) (d : List UInt8) : HM (Option (Buf UInt8)) :=
  if op.has_string_param then do
    let copy ← strdup op.param_str
    let n := 1 + op.param_str.count ' '
    match ← malloc (Dbl × Dbl) n with
    | none => do
      free copy
      pure none
    | some markers => do
      let (i, c) ← use [copy, markers.id] (readMarkers L n (strtok ' ' op.param_str) 0 markers.cells)
      if i = 0 then do
        free markers.id
        free copy
        pure none
      else do
        match ← fcv_rgba_to_grayscale P (u32OfInt w) (u32OfInt h) (some d) with
        | none => do
          free markers.id
          free copy
          pure none
        | some g => do
          let gray ← use [g.id] (asInput g.cells)
          let ms ← use [markers.id] (asInput (c.take i))
          let r ← fcv_watershed_segmentation P (u32OfInt w) (u32OfInt h) (some gray) (some ms) i false
          free g.id
          free markers.id
          free copy
          pure r
  else pure none

/-- cli.c:1123-1165: crop. -/
def cropOpRun (P : Plat) (w h : Int) (op : PipelineOp) (d : List UInt8) : HM OpResult :=
  if op.has_param ∧ op.has_param2 ∧ op.has_param3 ∧ op.has_param4 then do
    let xo ← use [] (toI32 op.param)
    let yo ← use [] (toI32 op.param2)
    let cw ← use [] (toU32 op.param3)
    let ch ← use [] (toU32 op.param4)
    let x := if xo < 0 then 0 else u32OfInt xo
    let y := if yo < 0 then 0 else u32OfInt yo
    if x ≥ u32OfInt w ∨ y ≥ u32OfInt h then pure (none, w, h)
    else
      let mw := u32sub (u32OfInt w) x
      let mh := u32sub (u32OfInt h) y
      let cw := if cw > mw then mw else cw
      let ch := if ch > mh then mh else ch
      givenSize w h cw ch (fcv_crop P (u32OfInt w) (u32OfInt h) 4 (some d) x y cw ch)
  else pure (none, w, h)

/-- cli.c:1217-1259: rotate. -/
def rotateOp (P : Plat) (w h : Int) (op : PipelineOp) (d : List UInt8) : HM OpResult :=
  if op.has_param then do
    let a ← use [] (toI32 op.param)
    let angle := (Int.tmod a 360 + 360).tmod 360
    let uw := u32OfInt w
    let uh := u32OfInt h
    if angle ≠ 0 ∧ angle ≠ 90 ∧ angle ≠ 180 ∧ angle ≠ 270 then pure (none, w, h)
    else if angle = 0 then sameSize w h (copyOf (P.sz (P.sz (sizeOfInt P w * sizeOfInt P h) * 4)) d)
    else if angle = 90 then do
      match ← fcv_rotate_90_cw P uw uh (some d) with
      | some b => pure (some b, h, w)
      | none => pure (none, w, h)
    else if angle = 180 then sameSize w h (fcv_rotate_180 P uw uh (some d))
    else do
      match ← fcv_rotate_270_cw P uw uh (some d) with
      | some b => pure (some b, h, w)
      | none => pure (none, w, h)
  else pure (none, w, h)

/-- cli.c:965-977, 1340-1348: the pattern of sobel and of the morphology operations: a single-channel image becomes an RGBA image. -/
def backToRGBA (P : Plat) (w h : Int) (m : HM (Option (Buf UInt8))) : HM (Option (Buf UInt8)) := do
  match ← m with
  | none => pure none
  | some g => do
    let e ← use [g.id] (asInput g.cells)
    let r ← fcv_single_to_multichannel P (u32OfInt w) (u32OfInt h) (some e)
    free g.id
    pure r

/-- cli.c:1323-1426: erode, dilate, close and open. -/
def morphOp (P : Plat) (w h : Int) (op : PipelineOp) (d : List UInt8)
    (f : List UInt8 → Int → HM (Option (Buf UInt8))) : HM (Option (Buf UInt8)) :=
  if op.has_param then
    backToRGBA P w h (do
      match ← fcv_rgba_to_grayscale P (u32OfInt w) (u32OfInt h) (some d) with
      | none => pure none
      | some g => do
        let gray ← use [g.id] (asInput g.cells)
        let r ← use [] (toI32 op.param)
        let e ← f gray r
        free g.id
        pure e)
  else pure none

/-- cli.c:1260-1276: trim. -/
def trimOp (P : Plat) (L : Lib) (w h : Int) (op : PipelineOp) (d : List UInt8) : HM OpResult :=
  if op.has_string_param ∧ '%' ∈ op.param_str then fcv_trim_threshold P w h 4 (some d) (L.atof op.param_str)
  else if op.has_param then fcv_trim_threshold P w h 4 (some d) op.param
  else fcv_trim P w h 4 (some d)

/-- cli.c:1293-1322: border. -/
def borderOp (P : Plat) (w h : Int) (op : PipelineOp) (d : List UInt8) : HM OpResult :=
  if op.has_string_param ∧ op.has_param then do
    let b ← use [] (toU32 op.param)
    newSize w h (fcv_add_border P (u32OfInt w) (u32OfInt h) 4 (some op.param_str) b (some d))
  else pure (none, w, h)

/-- cli.c:1184-1210: extract_document_to. -/
def extractOpTo (P : Plat) (M : MathLib) (w h : Int) (op : PipelineOp) (d : List UInt8) : HM OpResult :=
  if op.has_param ∧ op.has_param2 then do
    let ow ← use [] (toU32 op.param)
    let oh ← use [] (toU32 op.param2)
    givenSize w h ow oh (fcv_extract_document P M (u32OfInt w) (u32OfInt h) (some d) ow oh)
  else pure (none, w, h)

/-- cli.c:840-905: resize. -/
def resizeOp (P : Plat) (L : Lib) (w h : Int) (op : PipelineOp) (d : List UInt8) : HM OpResult := do
  match ← resizeFactors L w h op with
  | none => pure (none, w, h)
  | some (x, y) => newSize w h (fcv_resize P (u32OfInt w) (u32OfInt h) x y (some d))

/-- cli.c:917-938: detect_corners. -/
def detectOp (P : Plat) (M : MathLib) (w h : Int) (d : List UInt8) : HM (Option (Buf UInt8)) := do
  let _ ← fcv_detect_corners P M.ex M.at2 M.asn (some d) w h
  let n ← use [] (byteCount P w h)
  copyOf n d

/-- cli.c:939-964: draw_corners. -/
def drawCornersOp (P : Plat) (M : MathLib) (w h : Int) (d : List UInt8) : HM (Option (Buf UInt8)) := do
  let k ← fcv_detect_corners P M.ex M.at2 M.asn (some d) w h
  let n ← use [] (byteCount P w h)
  drawOnCopy n d (drawCorners P w h k)

/-- cli.c:812-1431 `apply_operation`.  `d` are the bytes of `input_data`; the names are compared in the order of the C code. -/
def apply_operation (P : Plat) (M : MathLib) (L : Lib) (w h : Int) (op : PipelineOp) (d : List UInt8) : HM OpResult :=
  let uw := u32OfInt w
  let uh := u32OfInt h
  let name := op.operation
  if name = "grayscale".toList then sameSize w h (fcv_grayscale P uw uh (some d))
  else if name = "blur".toList then
    if op.has_param then sameSize w h (fcv_apply_gaussian_blur P M.ex uw uh op.param (some d)) else pure (none, w, h)
  else if name = "resize".toList then resizeOp P L w h op d
  else if name = "threshold".toList then sameSize w h (fcv_otsu_threshold_rgba P uw uh false (some d))
  else if name = "bw_smart".toList then sameSize w h (fcv_bw_smart P M.ex uw uh false (some d))
  else if name = "bw_smooth".toList then sameSize w h (fcv_bw_smart P M.ex uw uh true (some d))
  else if name = "detect_corners".toList then sameSize w h (detectOp P M w h d)
  else if name = "draw_corners".toList then sameSize w h (drawCornersOp P M w h d)
  else if name = "sobel".toList then sameSize w h (backToRGBA P w h (fcv_sobel_edge_detection P uw uh 4 (some d)))
  else if name = "circle".toList then shapeOnCopy P w h op d (fcv_draw_circle P uw uh 4)
  else if name = "disk".toList then shapeOnCopy P w h op d (fcv_draw_disk P uw uh 4)
  else if name = "watershed".toList then sameSize w h (watershedOp P L w h op d)
  else if name = "crop".toList then cropOpRun P w h op d
  else if name = "extract_document".toList then newSize w h (fcv_extract_document_auto P M uw uh (some d))
  else if name = "extract_document_to".toList then extractOpTo P M w h op d
  else if name = "flip_x".toList then sameSize w h (fcv_flip_x P uw uh (some d))
  else if name = "flip_y".toList then sameSize w h (fcv_flip_y P uw uh (some d))
  else if name = "rotate".toList then rotateOp P w h op d
  else if name = "trim".toList then trimOp P L w h op d
  else if name = "histogram".toList then newSize w h (fcv_generate_histogram P uw uh 4 (some d))
  else if name = "border".toList then borderOp P w h op d
  else if name = "erode".toList then sameSize w h (morphOp P w h op d fun g r => fcv_binary_erosion_disk P (some g) w h r)
  else if name = "dilate".toList then sameSize w h (morphOp P w h op d fun g r => fcv_binary_dilation_disk P (some g) w h r)
  else if name = "close".toList then sameSize w h (morphOp P w h op d fun g r => fcv_binary_closing_disk P (some g) w h r)
  else if name = "open".toList then sameSize w h (morphOp P w h op d fun g r => fcv_binary_opening_disk P (some g) w h r)
  else pure (none, w, h)

/-- How `execute_pipeline` calls `apply_operation`. -/
abbrev Apply := Int → Int → PipelineOp → List UInt8 → HM OpResult

/-- cli.c:1442-1505: the loop.  `temp` is the block of the last result, if there was one. -/
def runOps (apply : Apply) (input : Buf UInt8) : List PipelineOp → Int → Int → Buf UInt8 → Option Nat → HM OpResult
  | [], w, h, cur, _ => pure (some cur, w, h)
  | op :: rest, w, h, cur, temp => do
    let d ← use [cur.id] (asInput cur.cells)
    match ← apply w h op d with
    | (none, w, h) => do
      match temp with
      | some t => if t ≠ input.id then free t
      | none => pure ()
      pure (none, w, h)
    | (some b, w, h) => do
      match temp with
      | some t => if t ≠ input.id then free t
      | none => pure ()
      runOps apply input rest w h b (some b.id)

/-- cli.c:1433-1508 `execute_pipeline`. -/
def execute_pipeline (apply : Apply) (w h : Int) (ops : List PipelineOp) (input : Buf UInt8) : HM OpResult :=
  runOps apply input ops w h input none

/-! ### main -/

/-- What the tool finds outside: the image `stbi_load` makes of a file (its size, at least 1×1, and its RGBA bytes; `none` if it
cannot be decoded), the contents of the file as seen by the EXIF reader, and whether an image file can be written. -/
structure World where
  load : List Char → Option (Nat × Nat × List UInt8)
  file : List Char → Option (List UInt8)
  writable : List Char → Bool

/-- An image file that has been written: as JPEG or PNG, its size and its RGBA bytes. -/
structure Saved where
  path : List Char
  jpeg : Bool
  width : Int
  height : Int
  bytes : List UInt8
deriving DecidableEq

/-- `stbi_load` (cli.c:1549): the decoded image in a block; NULL also if there is no memory.  The allocations and releases inside
the decoder are not modelled. -/
def loadImage (W : World) (path : List Char) : HM (Option (Buf UInt8 × Nat × Nat)) :=
  match W.load path with
  | none => pure none
  | some (w, h, d) => do
    match ← malloc UInt8 d.length with
    | none => pure none
    | some b => pure (some ({ b with cells := d.map some }, w, h))

/-- `strrchr(path, '.')`: from the last dot on. -/
def lastDot (path : List Char) : Option (List Char) :=
  if '.' ∈ path then some ('.' :: (path.reverse.takeWhile (· ≠ '.')).reverse) else none

/-- cli.c:1559-1606: the orientation step for JPEG files. -/
def orientLoaded (P : Plat) (W : World) (path : List Char) (b : Buf UInt8) (w h : Nat) : HM (Buf UInt8 × Nat × Nat) :=
  if lastDot path ∈ [some ".jpg".toList, some ".jpeg".toList, some ".JPG".toList, some ".JPEG".toList] then do
    let o ← use [] (fcv_get_exif_orientation (W.file path))
    orientImage P o w h b
  else pure (b, w, h)

/-- cli.c:1633-1652: the writers read all `width * height * 4` bytes.  The stride `width * 4` of a PNG is computed in `int`. -/
def saveImage (W : World) (path : List Char) (w h : Int) (cells : Cells UInt8) : CM (Option Saved) := do
  let jpeg := lastDot path = some ".jpg".toList ∨ lastDot path = some ".jpeg".toList
  if jpeg then pure () else do
    let _ ← i32 (w * 4)
    pure ()
  let n := (w * h * 4).toNat
  if n ≤ cells.length then do
    let d ← asInput (cells.take n)
    if W.writable path then pure (some ⟨path, jpeg, w, h, d⟩) else pure none
  else .error .oobRead

/-- cli.c:1654-1671: what is released before `main` returns. -/
def releaseAll (p : Pipeline) (image result : Buf UInt8) : HM Unit := do
  free image.id
  if result.id ≠ image.id then free result.id
  free_pipeline p

/-- cli.c:1510-1672 `main`: the exit status and the image file written.  `argv` has `argc` entries. -/
def main (P : Plat) (M : MathLib) (L : Lib) (W : World) (argv : List (List Char)) : HM (Int × Option Saved) :=
  if argv.length < 3 then pure (1, none)
  else
    let input_path := argv.getD 1 []
    let output_path := argv.getLastD []
    let detectOnly := argv.length = 3 ∧ argv.getD 2 [] = "detect_corners".toList
    if ¬ detectOnly ∧ argv.length < 4 then pure (1, none)
    else do
      let p ← create_pipeline
      let (ok, p) ← parse_pipeline P L (if detectOnly then argv.drop 2 else (argv.drop 2).dropLast) p
      if ok = false ∨ p.ops = [] then do
        free_pipeline p
        pure (1, none)
      else
        match ← loadImage W input_path with
        | none => do
          free_pipeline p
          pure (1, none)
        | some (b, w, h) => do
          let (b, w, h) ← orientLoaded P W input_path b w h
          match ← execute_pipeline (apply_operation P M L) w h p.ops b with
          | (none, _, _) => do
            free b.id
            free_pipeline p
            pure (1, none)
          | (some r, w, h) =>
            if detectOnly then do
              releaseAll p b r
              pure (0, none)
            else do
              let s ← use [r.id] (saveImage W output_path w h r.cells)
              releaseAll p b r
              pure (if s.isSome then 0 else 1, s)

end FlatCV.Model
