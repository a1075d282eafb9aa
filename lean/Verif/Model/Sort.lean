/-
Model of `src/sort_corners.c` (the function `sort_corners`; the polar helpers above it are unused).

Coordinates are doubles including NaN and infinities.  `atan2` is a parameter.
-/
import Verif.Model.Perspective
import Verif.Core.Sqrt

namespace FlatCV.Model

/-- `Point2D` (1_types.h) with arbitrary doubles. -/
structure Pt where
  x : Dbl
  y : Dbl
deriving DecidableEq

/-- `sqrt`, correctly rounded. -/
def sqrtDbl : Dbl → CM Dbl
  | .nan => .ok .nan
  | .inf s => .ok (if s then .nan else .inf false)
  | .fin q => if q < 0 then .ok .nan else do
    let r ← f64sqrt q
    pure (.fin r)

/-- `2.0 * M_PI`. -/
def twoPi : ℚ := 884279719003555 / 140737488355328

abbrev dadd := Dbl.add Fmt.b64
abbrev dsub := Dbl.sub Fmt.b64
abbrev dmul := Dbl.mul Fmt.b64

/-- sort_corners.c:107-123: `min_x, max_x, min_y, max_y`. -/
def boundingBox (c0 c1 c2 : Pt) : Dbl × Dbl × Dbl × Dbl :=
  let step := fun (b : Dbl × Dbl × Dbl × Dbl) (p : Pt) =>
    (if Dbl.lt p.x b.1 then p.x else b.1, if Dbl.lt b.2.1 p.x then p.x else b.2.1,
     if Dbl.lt p.y b.2.2.1 then p.y else b.2.2.1, if Dbl.lt b.2.2.2 p.y then p.y else b.2.2.2)
  step (step (c0.x, c0.x, c0.y, c0.y) c1) c2

/-- `fabs(a - b) < tolerance`. -/
def near (tol : ℚ) (a b : Dbl) : Bool := Dbl.lt (absDbl (dsub a b)) (.fin tol)

/-- Which corner of a rectangle. -/
inductive Which where
  | tl | tr | bl | br | other
deriving DecidableEq

/-- sort_corners.c:129-146: the corner of the bounding box that the point occupies. -/
def occupies (b : Dbl × Dbl × Dbl × Dbl) (p : Pt) : Which :=
  if near 1 p.x b.1 && near 1 p.y b.2.2.1 then .tl
  else if near 1 p.x b.2.1 && near 1 p.y b.2.2.1 then .tr
  else if near 1 p.x b.1 && near 1 p.y b.2.2.2 then .bl
  else if near 1 p.x b.2.1 && near 1 p.y b.2.2.2 then .br
  else .other

/-- The double nearest to 0.1. -/
def tenth64 : ℚ := 3602879701896397 / 36028797018963968

/-- sort_corners.c:173-178: `a + b - c`. -/
def completion (a b c : Pt) : Pt := ⟨dsub (dadd a.x b.x) c.x, dsub (dadd a.y b.y) c.y⟩

/-- sort_corners.c:185-204: the score of a candidate. -/
def candidateScore (c0 c1 c2 p : Pt) : ℚ :=
  (if Dbl.le (.fin 0) p.x then 1 else 0) + (if Dbl.le (.fin 0) p.y then 1 else 0) +
    (if [c0, c1, c2].any (fun c => near tenth64 p.x c.x && near tenth64 p.y c.y) then 0 else 5)

/-- sort_corners.c:100-211: the fourth corner. -/
def missingCorner (c0 c1 c2 : Pt) : Pt :=
  let b := boundingBox c0 c1 c2
  let has := fun w => [c0, c1, c2].any (fun c => decide (occupies b c = w))
  if !has .tl then ⟨b.1, b.2.2.1⟩
  else if !has .tr then ⟨b.2.1, b.2.2.1⟩
  else if !has .bl then ⟨b.1, b.2.2.2⟩
  else if !has .br then ⟨b.2.1, b.2.2.2⟩
  else
    let pick := fun (s : Pt × ℚ) (p : Pt) =>
      if s.2 < candidateScore c0 c1 c2 p then (p, candidateScore c0 c1 c2 p) else s
    (pick (pick (pick (completion c1 c2 c0, -1) (completion c0 c1 c2)) (completion c0 c2 c1))
      (completion c1 c2 c0)).1

/-- sort_corners.c:94-222: fill `working_corners`. -/
def fillWorking (corners : List Pt) (num : Nat) (w : Cells Pt) : CM (Cells Pt) :=
  if num = 3 then do
    let c0 ← rdIn corners 0
    let c1 ← rdIn corners 1
    let c2 ← rdIn corners 2
    let w ← wr w 0 c0
    let w ← wr w 1 c1
    let w ← wr w 2 c2
    wr w 3 (missingCorner c0 c1 c2)
  else forN num w fun i w => do
    let c ← rdIn corners i
    wr w i c

/-- sort_corners.c:228-234: the centroid. -/
def centroid (n : Nat) (w : Cells Pt) : CM (Dbl × Dbl) := do
  let s ← forN n ((Dbl.fin 0, Dbl.fin 0) : Dbl × Dbl) fun i s => do
    let p ← rd w i
    pure (dadd s.1 p.x, dadd s.2 p.y)
  let x ← Dbl.div Fmt.b64 s.1 (.fin n)
  let y ← Dbl.div Fmt.b64 s.2 (.fin n)
  pure (x, y)

/-- sort_corners.c:237-245: the first corner with the smallest `x + y`. -/
def topLeft (n : Nat) (w : Cells Pt) : CM Nat := do
  let p ← rd w 0
  let r ← forN (n - 1) ((0, dadd p.x p.y) : Nat × Dbl) fun i s => do
    let p ← rd w (i + 1)
    let sum := dadd p.x p.y
    pure (if Dbl.lt sum s.2 then (i + 1, sum) else s)
  pure r.1

/-- `CornerInfo` (sort_corners.c:248-252). -/
structure CornerInfo where
  index : Nat
  angle : Dbl
  distance : Dbl

/-- sort_corners.c:262-276: one entry. -/
def cornerInfo (at2 : Dbl → Dbl → Dbl) (c : Dbl × Dbl) (i : Nat) (p : Pt) : CM CornerInfo := do
  let dx := dsub p.x c.1
  let dy := dsub p.y c.2
  let dist ← sqrtDbl (dadd (dmul dx dx) (dmul dy dy))
  let a := at2 dy dx
  pure ⟨i, if Dbl.lt a (.fin 0) then dadd a (.fin twoPi) else a, dist⟩

/-- sort_corners.c:261-277. -/
def fillInfo (at2 : Dbl → Dbl → Dbl) (n : Nat) (c : Dbl × Dbl) (w : Cells Pt) (info : Cells CornerInfo) :
    CM (Cells CornerInfo) :=
  forN n info fun i info => do
    let p ← rd w i
    let e ← cornerInfo at2 c i p
    wr info i e

/-- How many iterations of the loops that bring an angle into range are followed before the loop is
taken to run forever.  The theorems show that at most one iteration happens. -/
def angleFuel : Nat := 1000

/-- sort_corners.c:285-293: the angle relative to the top-left corner. -/
def relativeAngle (tl a : Dbl) : CM Dbl := do
  let a ← whileFuel angleFuel (dsub a tl) fun a =>
    pure (if Dbl.lt a (.fin 0) then (dadd a (.fin twoPi), false) else (a, true))
  whileFuel angleFuel a fun a =>
    pure (if Dbl.le (.fin twoPi) a then (dsub a (.fin twoPi), false) else (a, true))

/-- sort_corners.c:280-294. -/
def makeRelative (n tl : Nat) (info : Cells CornerInfo) : CM (Cells CornerInfo) := do
  let t ← rd info tl
  forN n info fun i info => do
    let e ← rd info i
    let a ← relativeAngle t.angle e.angle
    wr info i { e with angle := a }

/-- The bubble sort loops of sort_corners.c:297-317 and corner_detection.c:453-461, 470-478, with the
condition `gt` for exchanging two neighbours. -/
def bubbleSort {β : Type} (gt : β → β → Bool) (n : Nat) (s : Cells β) : CM (Cells β) :=
  forN (n - 1) s fun i s =>
    forN (n - 1 - i) s fun j s => do
      let a ← rd s j
      let b ← rd s (j + 1)
      if gt a b then do
        let s ← wr s j b
        wr s (j + 1) a
      else pure s

/-- The double nearest to 1e-6. -/
def tiny6 : ℚ := 4722366482869645 / 4722366482869645213696

/-- sort_corners.c:299-309: `should_swap`. -/
def shouldSwap (a b : CornerInfo) : Bool :=
  if Dbl.lt b.angle a.angle then true
  else near tiny6 a.angle b.angle && Dbl.lt b.distance a.distance

/-- sort_corners.c:320-322. -/
def copySorted (n : Nat) (w : Cells Pt) (info : Cells CornerInfo) (result : Cells Pt) : CM (Cells Pt) :=
  forN n result fun i result => do
    let e ← rd info i
    let p ← rd w e.index
    wr result i p

/-- sort_corners.c:325-326: `(double)a / b`. -/
def scaleOf (a b : Nat) : CM Dbl := Dbl.div Fmt.b64 (.fin a) (.fin b)

/-- The assignments of eight coordinates in sort_corners.c:329-338 and corner_detection.c:483-491, 499-507
(indices `i0` to `i3` into the sorted array). -/
def pickCorners (r : Cells Pt) (sx sy : Dbl) (i0 i1 i2 i3 : Nat) : CM (Corners Dbl) := do
  let p0 ← rd r i0
  let p1 ← rd r i1
  let p2 ← rd r i2
  let p3 ← rd r i3
  pure ⟨dmul p0.x sx, dmul p0.y sy, dmul p1.x sx, dmul p1.y sy, dmul p2.x sx, dmul p2.y sy, dmul p3.x sx, dmul p3.y sy⟩

/-- `{0, 0, 0, 0, 0, 0, 0, 0}`. -/
def noCorners : Corners Dbl := ⟨.fin 0, .fin 0, .fin 0, .fin 0, .fin 0, .fin 0, .fin 0, .fin 0⟩

/-- sort_corners.c:224-245 for the filled array: centroid and top-left index. -/
def sortPrepare (corners : List Pt) (num n : Nat) (w : Cells Pt) : CM (Cells Pt × (Dbl × Dbl) × Nat) := do
  let w ← fillWorking corners num w
  let c ← centroid n w
  let t ← topLeft n w
  pure (w, c, t)

/-- sort_corners.c:261-338: angles, sorting, copying, scaling. -/
def sortArrange (at2 : Dbl → Dbl → Dbl) (width height out_width out_height n : Nat) (w : Cells Pt) (c : Dbl × Dbl)
    (t : Nat) (info : Cells CornerInfo) (result : Cells Pt) : CM (Corners Dbl × Cells Pt) := do
  let info ← fillInfo at2 n c w info
  let info ← makeRelative n t info
  let info ← bubbleSort shouldSwap n info
  let result ← copySorted n w info result
  let sx ← scaleOf width out_width
  let sy ← scaleOf height out_height
  let k ← pickCorners result sx sy 0 1 2 3
  pure (k, result)

/-- sort_corners.c:68-345.  `result` is the caller's array (`none` is NULL); its new contents are the second
component.  `sizeof(Point2D)` is 16 and `sizeof(CornerInfo)` 24. -/
def sort_corners (P : Plat) (at2 : Dbl → Dbl → Dbl) (width height out_width out_height : Nat) (corners : List Pt)
    (num_corners : Nat) (result : Option (Cells Pt)) : HM (Corners Dbl × Option (Cells Pt)) :=
  if num_corners < 3 then pure (noCorners, result)
  else do
    let n := if num_corners ≥ 4 then num_corners else 4
    match ← malloc Pt (P.sz (n * 16) / 16) with
    | none => pure (noCorners, result)
    | some wb => do
      let (w, c, t) ← use [wb.id] (sortPrepare corners num_corners n wb.cells)
      match ← malloc CornerInfo (P.sz (n * 24) / 24) with
      | none => do
        free wb.id
        pure (noCorners, result)
      | some ib =>
        match result with
        | none => hfault .nullDeref
        | some r => do
          let (k, r) ← use [wb.id, ib.id] (sortArrange at2 width height out_width out_height n w c t ib.cells r)
          free ib.id
          free wb.id
          pure (k, some r)

end FlatCV.Model
