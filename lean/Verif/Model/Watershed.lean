/-
Model of `src/watershed_segmentation.c`.
-/
import Verif.Core.Mem
import Verif.Core.Float

namespace FlatCV.Model

/-- watershed_segmentation.c:17-20.  One struct is read and written as a whole. -/
structure QueueItem where
  x : Int
  y : Int
  label : Int

/-- watershed_segmentation.c:22-28.  `items` is the contents of the array. -/
structure Queue where
  items : Cells QueueItem
  front : Int
  rear : Int
  size : Int
  capacity : Int

/-- watershed_segmentation.c:47-51: a queue whose array `items` has just been allocated. -/
def newQueue (items : Cells QueueItem) (capacity : Nat) : Queue :=
  ⟨items, 0, -1, 0, i32OfU32 capacity⟩

/-- watershed_segmentation.c:63-74 (`q->rear + 1` and `q->size++` are checked for overflow). -/
def enqueue (q : Queue) (x y label : Int) : CM Queue :=
  if q.size ≥ q.capacity then pure q
  else do
    let r ← i32 (q.rear + 1)
    if q.capacity = 0 then .error .divByZero
    else do
      let rear := r.tmod q.capacity
      let items ← wrZ q.items rear ⟨x, y, label⟩
      let size ← i32 (q.size + 1)
      pure { q with items := items, rear := rear, size := size }

/-- watershed_segmentation.c:76-86. -/
def dequeue (q : Queue) : CM (QueueItem × Queue) :=
  if q.size = 0 then pure (⟨-1, -1, -1⟩, q)
  else do
    let item ← rdZ q.items q.front
    let f ← i32 (q.front + 1)
    if q.capacity = 0 then .error .divByZero
    else do
      let size ← i32 (q.size - 1)
      pure (item, { q with front := f.tmod q.capacity, size := size })

/-- watershed_segmentation.c:121-136: is some marker invalid? -/
def badMarkers (width height num_markers : Nat) (markers : List (Dbl × Dbl)) : CM Bool :=
  forBreak num_markers 0 false fun m _ => do
    match ← rdIn markers m with
    | (.fin x, .fin y) => do
      let marker_x ← castI32 x
      let marker_y ← castI32 y
      if marker_x < 0 ∨ marker_x ≥ i32OfU32 width ∨ marker_y < 0 ∨ marker_y ≥ i32OfU32 height then
        pure (true, true)
      else pure (false, false)
    | _ => pure (true, true)

/-- `y * width + x` with `int32_t` `x`, `y` and `uint32_t` `width`, stored in an `int32_t`
(watershed_segmentation.c:184, 205, 232, 258). -/
def wsIdx (width : Nat) (x y : Int) : Int :=
  i32OfU32 (u32 (u32 (u32OfInt y * width) + u32OfInt x))

/-- watershed_segmentation.c:181-188. -/
def placeMarkers (width num_markers : Nat) (markers : List (Dbl × Dbl)) (labels : Cells Int)
    (queue : Queue) : CM (Cells Int × Queue) :=
  forN num_markers (labels, queue) fun m (labels, queue) => do
    match ← rdIn markers m with
    | (.fin x, .fin y) => do
      let marker_x ← castI32 x
      let marker_y ← castI32 y
      let label := i32OfU32 m
      let labels ← wrZ labels (wsIdx width marker_x marker_y) label
      let queue ← enqueue queue marker_x marker_y label
      pure (labels, queue)
    | _ => .error .castRange

/-- watershed_segmentation.c:191-192. -/
def wsDx : List Int := [-1, 1, 0, 0]
def wsDy : List Int := [0, 0, -1, 1]

/-- watershed_segmentation.c:230-242: look at the neighbour `(nx, ny)`.  The state is
`neighbor_label`, `multiple_labels`; the flag is the `break`. -/
def neighbourAt (width height : Nat) (labels : Cells Int) (nx ny : Int) (s : Int × Bool) :
    CM ((Int × Bool) × Bool) :=
  if nx ≥ 0 ∧ nx < i32OfU32 width ∧ ny ≥ 0 ∧ ny < i32OfU32 height then do
    let l ← rdZ labels (wsIdx width nx ny)
    if l ≠ -1 then
      if s.1 = -1 then pure ((l, s.2), false)
      else if s.1 ≠ l then pure ((s.1, true), true)
      else pure (s, false)
    else pure (s, false)
  else pure (s, false)

/-- watershed_segmentation.c:222-243. -/
def neighbourScan (width height : Nat) (labels : Cells Int) (x y : Nat) : CM (Int × Bool) :=
  forBreak 4 0 (-1, false) fun d s => do
    let dx ← rdIn wsDx d
    let dy ← rdIn wsDy d
    neighbourAt width height labels (i32OfU32 (u32 (x + u32OfInt dx)))
      (i32OfU32 (u32 (y + u32OfInt dy))) s

/-- watershed_segmentation.c:205-251: one pixel of the scan. -/
def scanPixel (width height : Nat) (gray : List UInt8) (create_boundaries : Bool)
    (current_level : Nat) (labels : Cells Int) (x y : Nat) (s : Queue × Bool) :
    CM (Queue × Bool) := do
  let idx := i32OfU32 (u32 (u32 (y * width) + x))
  let l ← rdZ labels idx
  if l ≠ -1 then pure s
  else do
    let g ← rdInZ gray idx
    if ¬ g.toNat ≤ current_level then pure s
    else do
      let (neighbor_label, multiple_labels) ← neighbourScan width height labels x y
      if neighbor_label ≠ -1 ∧ (multiple_labels = false ∨ create_boundaries = false) then do
        let q ← enqueue s.1 (i32OfU32 x) (i32OfU32 y) neighbor_label
        pure (q, true)
      else pure s

/-- watershed_segmentation.c:200-253: `changed = false` and the scan of all pixels. -/
def scanAll (width height : Nat) (gray : List UInt8) (create_boundaries : Bool)
    (current_level : Nat) (labels : Cells Int) (queue : Queue) : CM (Queue × Bool) :=
  forN height (queue, false) fun y s =>
    forN width s fun x s => scanPixel width height gray create_boundaries current_level labels x y s

/-- watershed_segmentation.c:256-260: apply the queued expansions.  `fuel` bounds the number of
iterations; exceeding it is divergence. -/
def drainQueue (fuel width : Nat) (labels : Cells Int) (queue : Queue) : CM (Cells Int × Queue) :=
  whileFuel fuel (labels, queue) fun (labels, queue) =>
    if queue.size = 0 then pure ((labels, queue), true)
    else do
      let (item, queue) ← dequeue queue
      let labels ← wrZ labels (wsIdx width item.x item.y) item.label
      pure ((labels, queue), false)

/-- watershed_segmentation.c:200-260: one round of the `while (changed)` loop. -/
def floodRound (width height px : Nat) (gray : List UInt8) (create_boundaries : Bool)
    (current_level : Nat) (s : Cells Int × Queue) : CM ((Cells Int × Queue) × Bool) := do
  let (queue, changed) ← scanAll width height gray create_boundaries current_level s.1 s.2
  let r ← drainQueue (px + 2) width s.1 queue
  pure (r, !changed)

/-- watershed_segmentation.c:195-262: all levels.  The `while (changed)` loop and the queue loop
get fuel (number of pixels + 2). -/
def floodLevels (width height px : Nat) (gray : List UInt8) (create_boundaries : Bool)
    (labels : Cells Int) (queue : Queue) : CM (Cells Int × Queue) :=
  forN 256 (labels, queue) fun current_level s =>
    whileFuel (px + 2) s (floodRound width height px gray create_boundaries current_level)

/-- `colors` (watershed_segmentation.c:267-278). -/
def wsColors : List (List UInt8) :=
  [[255, 0, 0], [0, 255, 0], [0, 0, 255], [255, 255, 0], [255, 0, 255], [0, 255, 255],
   [255, 128, 0], [128, 0, 255], [255, 192, 203], [128, 128, 128]]

/-- watershed_segmentation.c:282-303: one pixel of the output. -/
def paintLabel (labels : Cells Int) (i : Nat) (out : Cells UInt8) : CM (Cells UInt8) := do
  let rgba_idx := u32 (i * 4)
  let label ← rd labels i
  let (r, g, b) ← (
    if label = -1 then pure (0, 0, 0)
    else if label ≥ 0 ∧ label < 10 then do
      let col ← rdInZ wsColors label
      pure (← rdIn col 0, ← rdIn col 1, ← rdIn col 2)
    else pure (128, 128, 128) : CM (UInt8 × UInt8 × UInt8))
  let out ← wr out rgba_idx r
  let out ← wr out (u32 (rgba_idx + 1)) g
  let out ← wr out (u32 (rgba_idx + 2)) b
  wr out (u32 (rgba_idx + 3)) 255

/-- watershed_segmentation.c:281-304. -/
def paintLabels (px : Nat) (labels : Cells Int) (out : Cells UInt8) : CM (Cells UInt8) :=
  forU32 px out fun i out => paintLabel labels i out

/-- watershed_segmentation.c:105-309.  `create_queue` (30-52) and `destroy_queue` (54-59) are
inlined; the queue struct is one element of a block of its own.  `sizeof(QueueItem)` is 12. -/
def fcv_watershed_segmentation (P : Plat) (width height : Nat) (grayscale_data : Option (List UInt8))
    (markers : Option (List (Dbl × Dbl))) (num_markers : Nat) (create_boundaries : Bool) :
    HM (Option (Buf UInt8)) :=
  match grayscale_data, markers with
  | some gray, some ms =>
    if num_markers = 0 then pure none
    else if width = 0 ∨ height = 0 then pure none
    else do
      let bad ← use [] (badMarkers width height num_markers ms)
      if bad then pure none
      else if width > P.szMax / height then pure none
      else
        let px := P.sz (width * height)
        if px > P.szMax / 4 then pure none
        else do
          match ← malloc UInt8 (P.sz (px * 4)) with
          | none => pure none
          | some out => do
            match ← malloc Int px with
            | none => do
              free out.id
              pure none
            | some labels => do
              let lab ← use [labels.id] (forU32 px labels.cells fun i l => wr l i (-1))
              if px = 0 ∨ px > P.szMax / 12 ∨ px > 2147483647 then do
                free out.id
                free labels.id
                pure none
              else do
                match ← malloc Unit 1 with
                | none => do
                  free out.id
                  free labels.id
                  pure none
                | some q => do
                  match ← malloc QueueItem px with
                  | none => do
                    free q.id
                    free out.id
                    free labels.id
                    pure none
                  | some items => do
                    let (lab, _) ← use [labels.id, q.id, items.id] (do
                      let (lab, queue) ← placeMarkers width num_markers ms lab
                        (newQueue items.cells px)
                      floodLevels width height px gray create_boundaries lab queue)
                    free items.id
                    free q.id
                    let c ← use [out.id, labels.id] (paintLabels px lab out.cells)
                    free labels.id
                    pure (some { out with cells := c })
  | _, _ => pure none

end FlatCV.Model
