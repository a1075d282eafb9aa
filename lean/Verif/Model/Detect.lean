/-
Model of `fcv_detect_corners` (`src/corner_detection.c`) without `DEBUG_LOGGING`.

`exit` and failed assertions end the program: fault `exit`.  `exp`, `atan2` and `asin` are parameters.
-/
import Verif.Model.Sort
import Verif.Model.Gray
import Verif.Model.Resize
import Verif.Model.Blur
import Verif.Model.Sobel
import Verif.Model.Draw
import Verif.Model.Watershed
import Verif.Model.Colors
import Verif.Model.Color
import Verif.Model.Morph
import Verif.Model.Foerstner
import Verif.Model.Peaks

namespace FlatCV.Model


/-- The doubles nearest to 0.4, 0.2, 0.05 and 0.01. -/
def dbl04 : ℚ := 3602879701896397 / 9007199254740992
def dbl02 : ℚ := 3602879701896397 / 18014398509481984
def dbl005 : ℚ := 3602879701896397 / 72057594037927936
def dbl001 : ℚ := 5764607523034235 / 576460752303423488

/-- The pattern `r = f(in); free(in); if (!r) exit(EXIT_FAILURE);`. -/
def nextImage (b : Buf UInt8) (f : List UInt8 → HM (Option (Buf UInt8))) : HM (Buf UInt8) := do
  let d ← use [b.id] (asInput b.cells)
  let r ← f d
  free b.id
  match r with
  | none => hfault .exit
  | some r => pure r

/-- corner_detection.c:361-370: lower a threshold. -/
def lowerThreshold (t : Dbl) : Dbl :=
  let t := dsub t (.fin dbl005)
  if Dbl.lt t (.fin dbl001) then .fin dbl001 else t

/-- corner_detection.c:344-380: search with lower and lower thresholds (`fuel` iterations; running out of them
is the fault `diverge`).  Peaks found in vain are freed at the start of the next iteration. -/
def searchPeaks (P : Plat) (ow oh : Nat) (response : List UInt8) : Nat → Dbl → Dbl → HM (Option CornerPeaks)
  | 0, _, _ => hfault .diverge
  | fuel + 1, acc, rou => do
    match ← fcv_corner_peaks P ow oh (some response) 16 acc rou with
    | none => pure none
    | some peaks =>
      if peaks.count < 4 then
        let acc := lowerThreshold acc
        let rou := lowerThreshold rou
        if Dbl.lt (.fin dbl001) acc || Dbl.lt (.fin dbl001) rou then do
          freeOpt peaks.points
          free peaks.id
          searchPeaks P ow oh response fuel acc rou
        else pure (some peaks)
      else pure (some peaks)

/-- `x == 0`. -/
def isZero (x : Dbl) : Bool := decide (x = .fin 0)

/-- corner_detection.c:415-447: the angle at `curr`, in degrees. -/
def angleAt (asn : Dbl → Dbl) (prev curr next : Pt) : CM Dbl := do
  let a_x := dsub prev.x curr.x
  let a_y := dsub prev.y curr.y
  let b_x := dsub next.x curr.x
  let b_y := dsub next.y curr.y
  let a_len ← sqrtDbl (dadd (dmul a_x a_x) (dmul a_y a_y))
  let b_len ← sqrtDbl (dadd (dmul b_x b_x) (dmul b_y b_y))
  if isZero a_len || isZero b_len then pure (.fin 0)
  else do
    let c ← Dbl.div Fmt.b64 (dsub (dmul a_x b_y) (dmul a_y b_x)) (dmul a_len b_len)
    let c := if Dbl.lt (.fin 1) c then .fin 1 else c
    let c := if Dbl.lt c (.fin (-1)) then .fin (-1) else c
    Dbl.div Fmt.b64 (dmul (asn c) (.fin 180)) (.fin mPi)

/-- `AngleIndex` (corner_detection.c:408-411). -/
structure AngleIndex where
  index : Nat
  angle_abs : Dbl

/-- corner_detection.c:414-450. -/
def fillAngles (asn : Dbl → Dbl) (count : Nat) (sorted : Cells Pt) (angles : Cells Dbl) (infos : Cells AngleIndex) :
    CM (Cells Dbl × Cells AngleIndex) :=
  forN count (angles, infos) fun i s => do
    let prev ← rd sorted (u32 (u32sub i 1 + count) % count)
    let curr ← rd sorted i
    let next ← rd sorted (u32 (i + 1) % count)
    let a ← angleAt asn prev curr next
    let angles ← wr s.1 i a
    let infos ← wr s.2 i ⟨i, absDbl a⟩
    pure (angles, infos)

/-- corner_detection.c:453-491: the four corners with the largest angles, in the order of the sorted array. -/
def topFour (sorted : Cells Pt) (count : Nat) (infos : Cells AngleIndex) (sx sy : Dbl) : CM (Corners Dbl) := do
  let infos ← bubbleSort (fun a b => Dbl.lt a.angle_abs b.angle_abs) count infos
  let top ← forN 4 (List.replicate 4 none : Cells Nat) fun i top => do
    let e ← rd infos i
    wr top i e.index
  let top ← bubbleSort (fun a b => decide (b < a)) 4 top
  let i0 ← rd top 0
  let i1 ← rd top 1
  let i2 ← rd top 2
  let i3 ← rd top 3
  pickCorners sorted sx sy i0 i1 i2 i3

/-- `a % b` of unsigned numbers. -/
def modU (a b : Nat) : CM Nat := if b = 0 then .error .divByZero else .ok (a % b)

/-- corner_detection.c:387-508 and 605.  `sizeof(Point2D)` is 16, `sizeof(AngleIndex)` 16, `sizeof(double)` 8.
Writing to NULL is the fault `nullDeref`. -/
def selectCorners (P : Plat) (at2 : Dbl → Dbl → Dbl) (asn : Dbl → Dbl) (width height ow oh : Nat) (peaks : CornerPeaks) :
    HM (Corners Dbl) := do
  let pts ← (match peaks.points with
    | none => pure []
    | some b => use [b.id] (asInput b.cells) : HM (List Point2D))
  let sorted ← malloc Pt (P.sz (peaks.count * 16) / 16)
  let r ← sort_corners P at2 width height ow oh (pts.map fun p => ⟨.fin p.1, .fin p.2⟩) peaks.count
    (sorted.map fun b => b.cells)
  match sorted, r.2 with
  | some sb, some cells => do
    let sx ← use [] (scaleOf width ow)
    let sy ← use [] (scaleOf height oh)
    let k ← (if peaks.count > 4 then do
        match ← malloc Dbl (P.sz (peaks.count * 8) / 8) with
        | none => hfault .nullDeref
        | some angles => do
          match ← malloc AngleIndex (P.sz (peaks.count * 16) / 16) with
          | none => hfault .nullDeref
          | some infos => do
            let k ← use [sb.id, angles.id, infos.id] (do
              let s ← fillAngles asn peaks.count cells angles.cells infos.cells
              topFour cells peaks.count s.2 sx sy)
            free angles.id
            free infos.id
            pure k
      else use [sb.id] (do
        let i1 ← modU 1 peaks.count
        let i2 ← modU 2 peaks.count
        let i3 ← modU 3 peaks.count
        pickCorners cells sx sy 0 i1 i2 i3) : HM (Corners Dbl))
    free sb.id
    free peaks.id
    pure k
  | _, _ => hfault .nullDeref

/-- corner_detection.c:222-262: watershed of the bordered map (`bordered`), without the border. -/
def segmentImage (P : Plat) (ow oh bw bh : Nat) (bordered : Buf UInt8) : HM (Buf UInt8) := do
  match ← malloc (Dbl × Dbl) 2 with
  | none => do
    free bordered.id
    hfault .exit
  | some mb => do
    let ms ← use [mb.id] (do
      let x ← Dbl.div Fmt.b64 (.fin bw) (.fin 2)
      let y ← Dbl.div Fmt.b64 (.fin bh) (.fin 2)
      let m ← wr mb.cells 0 (x, y)
      let m ← wr m 1 (.fin 0, .fin 0)
      asInput m)
    let d ← use [bordered.id] (asInput bordered.cells)
    let wide ← fcv_watershed_segmentation P bw bh (some d) (some ms) 2 false
    free bordered.id
    free mb.id
    match ← malloc UInt8 (u32 (u32 (ow * oh) * 4)) with
    | none => do
      freeOpt wide
      hfault .exit
    | some seg =>
      match wide with
      | none => hfault .nullDeref
      | some wb => do
        let c ← use [seg.id, wb.id] (do
          let wd ← asInput wb.cells
          forN (u32sub bh 1 - 1) seg.cells fun k s =>
            let y := k + 1
            memcpyIn s (u32 (u32 ((y - 1) * ow) * 4)) wd (u32 (u32 (u32 (y * bw) + 1) * 4)) (u32 (ow * 4)))
        pure { seg with cells := c }

/-- corner_detection.c:314-340: the copy of the first channel, made for debugging. -/
def copyChannel (ow oh : Nat) (response : Buf UInt8) : HM Unit := do
  match ← malloc UInt8 (u32 (ow * oh)) with
  | none => do
    free response.id
    hfault .exit
  | some w => do
    let _ ← use [w.id, response.id] (forN (u32 (ow * oh)) w.cells fun i c => do
      let v ← rd response.cells (u32 (i * 2))
      wr c i v)
    free w.id

/-- corner_detection.c:128-313: from the image to the corner response; `none` when the first step fails. -/
def cornerResponse (P : Plat) (ex : ℚ → ℚ) (w h : Nat) (image : List UInt8) : HM (Option (Buf UInt8 × Nat × Nat)) := do
  match ← fcv_grayscale P w h (some image) with
  | none => pure none
  | some gray => do
    let d ← use [gray.id] (asInput gray.cells)
    let rx ← use [] (scaleOf 256 w)
    let ry ← use [] (scaleOf 256 h)
    let (resized, dims) ← fcv_resize P w h rx ry (some d)
    free gray.id
    let (ow, oh) := dims.getD (256, 256)
    match resized with
    | none => hfault .exit
    | some resized => do
      let blurred ← nextImage resized fun d => fcv_apply_gaussian_blur P ex ow oh (.fin 3) (some d)
      let elevation ← nextImage blurred fun d => fcv_sobel_edge_detection P ow oh 4 (some d)
      let flat ← use [elevation.id] (do
        let cx ← Dbl.div Fmt.b64 (.fin ow) (.fin 2)
        let cy ← Dbl.div Fmt.b64 (.fin oh) (.fin 2)
        let d ← asInput elevation.cells
        fcv_draw_disk P ow oh 1 (some "000000".toList) (.fin 24) cx cy d)
      let (bordered, bdims) ← fcv_add_border P ow oh 1 (some "000000".toList) 1 (some flat)
      free elevation.id
      match bordered, bdims with
      | some bordered, some (bw, bh) => do
        let segmented ← segmentImage P ow oh bw bh bordered
        let sd ← use [segmented.id] (asInput segmented.cells)
        let regions ← count_colors ow oh (some sd)
        if regions ≠ 2 then do
          free segmented.id
          hfault .exit
        else do
          let binary ← fcv_convert_to_binary P (some sd) ow oh (some "FF0000".toList) (some "00FF00".toList)
          free segmented.id
          let bd ← (match binary with
            | none => pure none
            | some b => use [b.id] (do
              let d ← asInput b.cells
              pure (some d)) : HM (Option (List UInt8)))
          let closed ← fcv_binary_closing_disk P bd ow oh 12
          freeOpt binary
          match closed with
          | none => hfault .exit
          | some closed => do
            let response ← nextImage closed fun d => fcv_foerstner_corner P ow oh (some d) (.fin (3 / 2))
            pure (some (response, ow, oh))
      | _, _ => hfault .exit

/-- corner_detection.c:117-126. -/
def defaultCorners (w h : Nat) : Corners Dbl :=
  ⟨.fin 0, .fin 0, .fin ((w : ℚ) - 1), .fin 0, .fin ((w : ℚ) - 1), .fin ((h : ℚ) - 1), .fin 0, .fin ((h : ℚ) - 1)⟩

/-- corner_detection.c:111-607.  At most `searchFuel` thresholds are tried; the theorems show that eight suffice. -/
def searchFuel : Nat := 100

def fcv_detect_corners (P : Plat) (ex : ℚ → ℚ) (at2 : Dbl → Dbl → Dbl) (asn : Dbl → Dbl) (image : Option (List UInt8))
    (width height : Int) : HM (Corners Dbl) :=
  match image with
  | none => hfault .exit
  | some d =>
    if width ≤ 0 ∨ height ≤ 0 then hfault .exit
    else do
      let w := width.toNat
      let h := height.toNat
      match ← cornerResponse P ex w h d with
      | none => pure (defaultCorners w h)
      | some (response, ow, oh) => do
        copyChannel ow oh response
        let rd ← use [response.id] (asInput response.cells)
        let peaks ← searchPeaks P ow oh rd searchFuel (.fin dbl04) (.fin dbl02)
        free response.id
        match peaks with
        | none => hfault .exit
        | some peaks => selectCorners P at2 asn w h ow oh peaks

end FlatCV.Model
