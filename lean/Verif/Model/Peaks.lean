/-
Model of `src/corner_peaks.c`.
-/
import Verif.Core.Mem
import Verif.Core.Sqrt

namespace FlatCV.Model

/-- `Point2D` (1_types.h). -/
abbrev Point2D := ℚ × ℚ

/-- `CornerPeaks` (corner_peaks.h): `id` is the block of the struct itself. -/
structure CornerPeaks where
  id : Nat
  points : Option (Buf Point2D)
  count : Nat

/-- `dx`, `dy` of the loops at corner_peaks.c:35-36, in order. -/
def peakOffsets : List (Int × Int) :=
  [(-1, -1), (0, -1), (1, -1), (-1, 0), (0, 0), (1, 0), (-1, 1), (0, 1), (1, 1)]

/-- corner_peaks.c:17-50.  The two nested loops are one loop over `peakOffsets`. -/
def is_local_maximum (data : List UInt8) (width height x y channel : Nat) : CM Bool := do
  if x = 0 ∨ y = 0 ∨ x ≥ u32sub width 1 ∨ y ≥ u32sub height 1 then pure false
  else do
    let center_idx := u32 (u32 (u32 (u32 (y * width) + x) * 2) + channel)
    let center_val ← rdIn data center_idx
    if center_val = 0 then pure false
    else
      forBreak 9 0 true fun k _ => do
        let o ← rdIn peakOffsets k
        if o.1 = 0 ∧ o.2 = 0 then pure (true, false)
        else do
          let neighbor_idx := u32 (u32 (u32 (u32 (u32 (y + u32OfInt o.2) * width)
            + u32 (x + u32OfInt o.1)) * 2) + channel)
          let v ← rdIn data neighbor_idx
          if v > center_val then pure (false, true) else pure (true, false)

/-- corner_peaks.c:52-56. -/
def euclidean_distance (a b : Point2D) : CM ℚ := do
  let dx ← f64 (a.1 - b.1)
  let dy ← f64 (a.2 - b.2)
  let xx ← f64 (dx * dx)
  let yy ← f64 (dy * dy)
  let s ← f64 (xx + yy)
  f64sqrt s

/-- corner_peaks.c:107-119: one pixel. -/
def peakPixel (width height : Nat) (data : List UInt8) (accuracy_thresh roundness_thresh : ℚ)
    (x y : Nat) (s : Cells Point2D × Nat) : CM (Cells Point2D × Nat) := do
  let idx := u32 (u32 (u32 (y * width) + x) * 2)
  let a ← rdIn data idx
  let w ← f64div a.toNat 255
  let b ← rdIn data (u32 (idx + 1))
  let q ← f64div b.toNat 255
  if q > roundness_thresh ∧ w > accuracy_thresh then do
    if ← is_local_maximum data width height x y 0 then do
      let c ← wr s.1 s.2 ((x : ℚ), (y : ℚ))
      pure (c, u32 (s.2 + 1))
    else pure s
  else pure s

/-- corner_peaks.c:103-121 (`y` runs from 1 while `y < height - 1`, likewise `x`). -/
def peakCandidates (width height : Nat) (data : List UInt8) (accuracy_thresh roundness_thresh : ℚ)
    (candidates : Cells Point2D) : CM (Cells Point2D × Nat) :=
  forN (u32sub height 1 - 1) (candidates, 0) fun i s =>
    forN (u32sub width 1 - 1) s fun j s =>
      peakPixel width height data accuracy_thresh roundness_thresh (j + 1) (i + 1) s

/-- `data[((uint32_t)p.y * width + (uint32_t)p.x) * 2]` (corner_peaks.c:151-156). -/
def peakValue (width : Nat) (data : List UInt8) (p : Point2D) : CM UInt8 := do
  let py ← castU32 p.2
  let pxx ← castU32 p.1
  rdIn data (u32 (u32 (u32 (py * width) + pxx) * 2))

/-- corner_peaks.c:145-164: the inner loop body. -/
def suppressPair (width min_distance : Nat) (data : List UInt8) (candidates : Cells Point2D)
    (i j : Nat) (rejected : Cells Bool) : CM (Cells Bool × Bool) := do
  if ← rd rejected j then pure (rejected, false)
  else do
    let a ← rd candidates i
    let b ← rd candidates j
    let dist ← euclidean_distance a b
    if dist < (min_distance : ℚ) then do
      let vi ← peakValue width data a
      let vj ← peakValue width data b
      if vi ≥ vj then do
        let r ← wr rejected j true
        pure (r, false)
      else do
        let r ← wr rejected i true
        pure (r, true)
    else pure (rejected, false)

/-- corner_peaks.c:138-166. -/
def suppressAll (width min_distance : Nat) (data : List UInt8) (candidates : Cells Point2D)
    (count : Nat) (rejected : Cells Bool) : CM (Cells Bool) :=
  forN count rejected fun i rejected => do
    if ← rd rejected i then pure rejected
    else
      forBreak (count - (i + 1)) (i + 1) rejected fun j rejected =>
        suppressPair width min_distance data candidates i j rejected

/-- corner_peaks.c:168-173. -/
def countKept (count : Nat) (rejected : Cells Bool) : CM Nat :=
  forN count 0 fun i n => do
    if ← rd rejected i then pure n else pure (u32 (n + 1))

/-- corner_peaks.c:182-188. -/
def copyKept (count : Nat) (candidates : Cells Point2D) (rejected : Cells Bool)
    (final_points : Cells Point2D) : CM (Cells Point2D × Nat) :=
  forN count (final_points, 0) fun i s => do
    if ← rd rejected i then pure s
    else do
      let p ← rd candidates i
      let f ← wr s.1 s.2 p
      pure (f, u32 (s.2 + 1))

/-- corner_peaks.c:70-200.  `sizeof(Point2D)` is 16. -/
def fcv_corner_peaks (P : Plat) (width height : Nat) (data : Option (List UInt8))
    (min_distance : Nat) (accuracy_thresh roundness_thresh : Dbl) : HM (Option CornerPeaks) :=
  match data with
  | none => pure none
  | some d =>
    if width = 0 ∨ height = 0 then pure none
    else
      match accuracy_thresh, roundness_thresh with
      | .fin acc, .fin rou =>
        if width > P.szMax / height then pure none
        else
          let num_pixels := P.sz (width * height)
          if num_pixels > P.szMax / 16 then pure none
          else do
            match ← malloc Point2D num_pixels with
            | none => pure none
            | some candidates => do
              let (cc, count) ← use [candidates.id]
                (peakCandidates width height d acc rou candidates.cells)
              if count = 0 then do
                free candidates.id
                match ← malloc Unit 1 with
                | none => pure none
                | some result => pure (some ⟨result.id, none, 0⟩)
              else do
                match ← calloc count false with
                | none => do
                  free candidates.id
                  pure none
                | some rejected => do
                  let rc ← use [candidates.id, rejected.id]
                    (suppressAll width min_distance d cc count rejected.cells)
                  let final_count ← use [rejected.id] (countKept count rc)
                  match ← malloc Point2D final_count with
                  | none => do
                    free candidates.id
                    free rejected.id
                    pure none
                  | some final => do
                    let (fc, _) ← use [candidates.id, rejected.id, final.id]
                      (copyKept count cc rc final.cells)
                    free candidates.id
                    free rejected.id
                    match ← malloc Unit 1 with
                    | none => do
                      free final.id
                      pure none
                    | some result => pure (some ⟨result.id, some { final with cells := fc }, final_count⟩)
      | _, _ => pure none

end FlatCV.Model
