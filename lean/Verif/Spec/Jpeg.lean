/-
A reader of baseline JPEG files, written from ITU-T T.81 (sequential DCT, Huffman coding, 8 bits, no restart intervals): from the bytes of
a file to its quantised coefficients.  And what these coefficients should be: the cosine transform of the components of the image (ITU-T
T.81, A.3.3; the components as in ITU-T T.871), as real numbers.
-/
import Mathlib.Analysis.SpecialFunctions.Trigonometric.Basic
import Verif.Core.Num

namespace FlatCV.Jpg

/-! ### Bits -/

/-- The `n` low bits of `v`, the most significant one first. -/
def msb (v n : Nat) : List Bool := (List.range n).reverse.map v.testBit

/-- The number with these bits. -/
def value (b : List Bool) : Nat := b.foldl (fun a x => 2 * a + x.toNat) 0

/-- T.81, F.2.2.4: the next `n` bits as a number. -/
def receive (n : Nat) (b : List Bool) : Option (Nat × List Bool) := if n ≤ b.length then some (value (b.take n), b.drop n) else none

/-- T.81, F.2.2.1: the value that `v` of `s` bits stands for. -/
def extend (v s : Nat) : Int := if v < 2 ^ (s - 1) then (v : Int) - 2 ^ s + 1 else v

/-- T.81, F.2.2.5 and B.1.1.5: the bytes of the entropy-coded data, up to the next marker.  A byte FF is followed by a byte 0. -/
def unstuff : List UInt8 → Option (List UInt8 × List UInt8)
  | [] => none
  | b :: t =>
    if b = 0xFF then
      match t with
      | [] => none
      | c :: t' => if c = 0 then (unstuff t').map fun r => (0xFF :: r.1, r.2) else some ([], b :: c :: t')
    else (unstuff t).map fun r => (b :: r.1, r.2)

/-- The bits of bytes, the most significant one first. -/
def bitsOf (l : List UInt8) : List Bool := l.flatMap fun b => msb b.toNat 8

/-! ### Huffman codes -/

/-- A code: the bits of each value. -/
abbrev Code := List (List Bool × Nat)

/-- T.81, annex C: the code words in the order of their lengths.  A word follows the one before it, with zeros to its length. -/
def words : Nat → Nat → List Nat → List (List Bool)
  | _, _, [] => []
  | code, last, s :: l => msb (code * 2 ^ (s - last)) s :: words (code * 2 ^ (s - last) + 1) s l

/-- T.81, annex C: the code with `counts[i]` words of length `i + 1`, for these values. -/
def mkCode (counts vals : List Nat) : Code :=
  (words 0 0 (counts.zipIdx.flatMap fun p => List.replicate p.1 (p.2 + 1))).zip vals

/-- The value whose word comes next. -/
def symbol (t : Code) (b : List Bool) : Option (Nat × List Bool) :=
  (t.find? fun e => e.1.isPrefixOf b).map fun e => (e.2, b.drop e.1.length)

/-! ### Blocks -/

/-- T.81, F.2.2.1: the difference of a DC coefficient. -/
def decodeDC (t : Code) (b : List Bool) : Option (Int × List Bool) := do
  let (s, b) ← symbol t b
  let (v, b) ← receive s b
  if s = 0 then some (0, b) else some (extend v s, b)

/-- T.81, F.2.2.2: the last `n` coefficients of a block, in zigzag order. -/
def decodeAC (t : Code) : Nat → Nat → List Bool → Option (List Int × List Bool)
  | _, 0, b => some ([], b)
  | 0, _ + 1, _ => none
  | f + 1, n + 1, b => do
    let (rs, b) ← symbol t b
    if rs = 0 then some (List.replicate (n + 1) 0, b)
    else if rs = 0xF0 then
      if 16 ≤ n + 1 then do
        let (l, b) ← decodeAC t f (n + 1 - 16) b
        some (List.replicate 16 0 ++ l, b)
      else none
    else if rs % 16 = 0 then none
    else if rs / 16 ≤ n then do
      let (v, b) ← receive (rs % 16) b
      let (l, b) ← decodeAC t f (n - rs / 16) b
      some (List.replicate (rs / 16) 0 ++ extend v (rs % 16) :: l, b)
    else none

/-- T.81, F.2.1.2: the 64 coefficients of a block in zigzag order; `pred` is the DC coefficient of the block before. -/
def decodeBlock (dc ac : Code) (pred : Int) (b : List Bool) : Option (List Int × List Bool) := do
  let (d, b) ← decodeDC dc b
  let (l, b) ← decodeAC ac 64 63 b
  some ((pred + d) :: l, b)

/-! ### The file -/

/-- A component of the image: its identifier, sampling factors and quantisation table. -/
structure Comp where
  id : Nat
  hs : Nat
  vs : Nat
  tq : Nat
deriving DecidableEq, Repr

/-- T.81, B.2.2: the header of a frame. -/
structure Frame where
  height : Nat
  width : Nat
  comps : List Comp
deriving DecidableEq

/-- What has been read before the scan: quantisation tables (64 numbers in zigzag order), codes (DC tables 0-15, AC tables 16-31), the
frame. -/
structure Tables where
  qt : Nat → Option (List Nat)
  ht : Nat → Option Code
  frame : Option Frame

/-- T.81, B.2.4.1: quantisation tables with values of one byte. -/
def readDQT : Nat → List UInt8 → Tables → Option Tables
  | _, [], t => some t
  | 0, _ :: _, _ => none
  | f + 1, b :: l, t =>
    if b.toNat < 4 ∧ 64 ≤ l.length then
      readDQT f (l.drop 64) { t with qt := fun i => if i = b.toNat then some ((l.take 64).map (·.toNat)) else t.qt i }
    else none

/-- T.81, B.2.4.2: Huffman tables. -/
def readDHT : Nat → List UInt8 → Tables → Option Tables
  | _, [], t => some t
  | 0, _ :: _, _ => none
  | f + 1, b :: l, t =>
    let counts := (l.take 16).map (·.toNat)
    if b.toNat < 32 ∧ 16 + counts.sum ≤ l.length then
      readDHT f ((l.drop 16).drop counts.sum)
        { t with ht := fun i => if i = b.toNat then some (mkCode counts (((l.drop 16).take counts.sum).map (·.toNat))) else t.ht i }
    else none

/-- T.81, B.2.2: the components in a frame header. -/
def readComps : Nat → List UInt8 → Option (List Comp)
  | 0, [] => some []
  | n + 1, c :: s :: q :: l => (readComps n l).map (⟨c.toNat, s.toNat / 16, s.toNat % 16, q.toNat⟩ :: ·)
  | _, _ => none

/-- T.81, B.2.2: a frame header. -/
def readSOF (l : List UInt8) : Option Frame :=
  match l with
  | p :: y1 :: y0 :: x1 :: x0 :: n :: l =>
    if p = 8 then (readComps n.toNat l).map (⟨y1.toNat * 256 + y0.toNat, x1.toNat * 256 + x0.toNat, ·⟩) else none
  | _ => none

/-- T.81, B.2.3: the components of a scan, each with its DC and its AC table. -/
def readScanComps : Nat → List UInt8 → Option (List (Nat × Nat × Nat))
  | 0, l => if l = [0, 63, 0] then some [] else none
  | n + 1, c :: t :: l => (readScanComps n l).map ((c.toNat, t.toNat / 16, t.toNat % 16) :: ·)
  | _, _ => none

/-- T.81, B.2.3: a scan header. -/
def readSOS (l : List UInt8) : Option (List (Nat × Nat × Nat)) :=
  match l with
  | n :: l => readScanComps n.toNat l
  | [] => none

/-- T.81, B.2.1: marker segments up to the scan header.  The result: the tables, the components of the scan, and what follows. -/
def readSegments : Nat → List UInt8 → Tables → Option (Tables × List (Nat × Nat × Nat) × List UInt8)
  | 0, _, _ => none
  | f + 1, l, t =>
    match l with
    | ff :: m :: a :: b :: l =>
      let len := a.toNat * 256 + b.toNat
      if ff = 0xFF ∧ 2 ≤ len ∧ len - 2 ≤ l.length then
        let body := l.take (len - 2)
        let rest := l.drop (len - 2)
        if m = 0xDA then (readSOS body).map fun c => (t, c, rest)
        else if m = 0xDB then (readDQT 4 body t).bind (readSegments f rest)
        else if m = 0xC4 then (readDHT 32 body t).bind (readSegments f rest)
        else if m = 0xC0 then (readSOF body).bind fun fr => if t.frame = none then readSegments f rest { t with frame := some fr } else none
        else if 0xE0 ≤ m.toNat ∧ m.toNat < 0xF0 ∨ m = 0xFE then readSegments f rest t
        else none
      else none
    | _ => none

/-- A component that takes part in the scan: sampling factors, codes, quantisation table. -/
structure Unit' where
  hs : Nat
  vs : Nat
  dc : Code
  ac : Code
  q : List Nat

/-- The components of the scan, in the order of the frame. -/
def scanUnits (t : Tables) : List Comp → List (Nat × Nat × Nat) → Option (List Unit')
  | [], [] => some []
  | c :: cs, (i, d, a) :: l => do
    let dc ← t.ht d
    let ac ← t.ht (16 + a)
    let q ← t.qt c.tq
    let r ← scanUnits t cs l
    if c.id = i ∧ 0 < c.hs ∧ 0 < c.vs then some (⟨c.hs, c.vs, dc, ac, q⟩ :: r) else none
  | _, _ => none

/-- T.81, A.2.3: `n` blocks of one component; with the last DC coefficient. -/
def decodeBlocks (u : Unit') : Nat → Int → List Bool → Option (List (List Int) × Int × List Bool)
  | 0, pred, b => some ([], pred, b)
  | n + 1, pred, b => do
    let (l, b) ← decodeBlock u.dc u.ac pred b
    let (r, p, b) ← decodeBlocks u n (l.getD 0 0) b
    some (l :: r, p, b)

/-- T.81, A.2.3: one MCU: for each component its blocks; `preds` are the DC coefficients before. -/
def decodeMCU : List Unit' → List Int → List Bool → Option (List (List (List Int)) × List Int × List Bool)
  | [], [], b => some ([], [], b)
  | u :: us, p :: ps, b => do
    let (l, p, b) ← decodeBlocks u (u.hs * u.vs) p b
    let (r, ps, b) ← decodeMCU us ps b
    some (l :: r, p :: ps, b)
  | _, _, _ => none

/-- `n` MCUs. -/
def decodeMCUs (us : List Unit') : Nat → List Int → List Bool → Option (List (List (List (List Int))) × List Bool)
  | 0, _, b => some ([], b)
  | n + 1, ps, b => do
    let (m, ps, b) ← decodeMCU us ps b
    let (r, b) ← decodeMCUs us n ps b
    some (m :: r, b)

/-- The contents of a file: its frame, the quantisation table of each component, and for each MCU, from left to right and from top to
bottom, and each component its blocks. -/
structure Contents where
  frame : Frame
  quant : List (List Nat)
  mcus : List (List (List (List Int)))

/-- The largest of the sampling factors. -/
def maxOf (l : List Nat) : Nat := l.foldl max 1

/-- The number of MCUs in a row (T.81, A.2). -/
def Frame.across (f : Frame) : Nat := (f.width + 8 * maxOf (f.comps.map (·.hs)) - 1) / (8 * maxOf (f.comps.map (·.hs)))

/-- The number of rows of MCUs (T.81, A.2). -/
def Frame.down (f : Frame) : Nat := (f.height + 8 * maxOf (f.comps.map (·.vs)) - 1) / (8 * maxOf (f.comps.map (·.vs)))

/-- The scan: the MCUs, then fewer than eight bits, all ones (T.81, F.1.2.3), then the end of the image. -/
def readScan (fr : Frame) (us : List Unit') (l : List UInt8) : Option Contents := do
  let (data, rest) ← unstuff l
  let (m, b) ← decodeMCUs us (fr.across * fr.down) (us.map fun _ => 0) (bitsOf data)
  if b.length < 8 ∧ b.all id = true ∧ rest = [0xFF, 0xD9] then some ⟨fr, us.map (·.q), m⟩ else none

/-- T.81, B.2.1: a file with one frame of one interleaved scan. -/
def readJpeg (l : List UInt8) : Option Contents :=
  match l with
  | a :: b :: l =>
    if a = 0xFF ∧ b = 0xD8 then do
      let (t, sc, rest) ← readSegments (l.length + 1) l ⟨fun _ => none, fun _ => none, none⟩
      let fr ← t.frame
      let us ← scanUnits t fr.comps sc
      if 0 < fr.width ∧ 0 < fr.height ∧ 1 < us.length then readScan fr us rest else none
    else none
  | _ => none

/-- T.81, A.2.3: coefficient `k`, in zigzag order, of the block in row `i` and column `j` of component `c`. -/
def Contents.coef (d : Contents) (c i j k : Nat) : Int :=
  let hs := (d.frame.comps.getD c ⟨0, 1, 1, 0⟩).hs
  let vs := (d.frame.comps.getD c ⟨0, 1, 1, 0⟩).vs
  (((d.mcus.getD (i / vs * d.frame.across + j / hs) []).getD c []).getD (i % vs * hs + j % hs) []).getD k 0

/-- The step of coefficient `k` of component `c`. -/
def Contents.step (d : Contents) (c k : Nat) : Nat := (d.quant.getD c []).getD k 0

/-! ### What the coefficients stand for -/

/-- T.81, figure A.6: the zigzag order of the positions (vertical, horizontal frequency) in a block. -/
def zigzag : List (Nat × Nat) :=
  (List.range 15).flatMap fun s =>
    let d := (List.range (s + 1)).map fun r => (r, s - r)
    (if s % 2 = 1 then d else d.reverse).filter fun p => p.1 < 8 ∧ p.2 < 8

/-- T.81, A.3.3: the factor of frequency 0. -/
noncomputable def norm0 (u : Nat) : ℝ := if u = 0 then 1 / √2 else 1

/-- T.81, A.3.3: the cosine transform of a block at vertical frequency `v` and horizontal frequency `u`. -/
noncomputable def dct (f : Nat → Nat → ℝ) (v u : Nat) : ℝ :=
  1 / 4 * norm0 u * norm0 v * ∑ y ∈ Finset.range 8, ∑ x ∈ Finset.range 8,
    f y x * Real.cos ((2 * x + 1) * u * Real.pi / 16) * Real.cos ((2 * y + 1) * v * Real.pi / 16)

/-- T.871, 7: luminance. -/
def luma (r g b : ℚ) : ℚ := 299 / 1000 * r + 587 / 1000 * g + 114 / 1000 * b

/-- T.871, 7: the two differences, before 128 is added. -/
def blueDiff (r g b : ℚ) : ℚ := (b - luma r g b) / (1772 / 1000)
def redDiff (r g b : ℚ) : ℚ := (r - luma r g b) / (1402 / 1000)

/-- Component `c` of the pixel in row `y` and column `x` of an RGBA image, minus 128 (T.81, A.3.1); outside the image that of the nearest
pixel. -/
def plane (w h : Nat) (d : List UInt8) (c y x : Nat) : ℚ :=
  let p := (min y (h - 1) * w + min x (w - 1)) * 4
  let r : ℚ := (d.getD p 0).toNat
  let g : ℚ := (d.getD (p + 1) 0).toNat
  let b : ℚ := (d.getD (p + 2) 0).toNat
  match c with
  | 0 => luma r g b - 128
  | 1 => blueDiff r g b
  | _ => redDiff r g b

/-- The samples of component `c`: luminance at every pixel, the differences as the mean of two by two pixels. -/
def sample (w h : Nat) (d : List UInt8) (c y x : Nat) : ℚ :=
  if c = 0 then plane w h d 0 y x
  else (plane w h d c (2 * y) (2 * x) + plane w h d c (2 * y) (2 * x + 1) + plane w h d c (2 * y + 1) (2 * x) +
    plane w h d c (2 * y + 1) (2 * x + 1)) / 4

/-- What coefficient `k` of the block in row `i` and column `j` of component `c` stands for: the cosine transform of the samples. -/
noncomputable def ideal (w h : Nat) (d : List UInt8) (c i j k : Nat) : ℝ :=
  dct (fun y x => (sample w h d c (8 * i + y) (8 * j + x) : ℝ)) (zigzag.getD k (0, 0)).1 (zigzag.getD k (0, 0)).2

/-- T.81, table K.1: the steps for luminance, row by row. -/
def tableK1 : List Nat :=
  [16, 11, 10, 16, 24, 40, 51, 61,
   12, 12, 14, 19, 26, 58, 60, 55,
   14, 13, 16, 24, 40, 57, 69, 56,
   14, 17, 22, 29, 51, 87, 80, 62,
   18, 22, 37, 56, 68, 109, 103, 77,
   24, 35, 55, 64, 81, 104, 113, 92,
   49, 64, 78, 87, 103, 121, 120, 101,
   72, 92, 95, 98, 112, 100, 103, 99]

/-- T.81, table K.2: the steps for the differences. -/
def tableK2 : List Nat :=
  [17, 18, 24, 47, 99, 99, 99, 99,
   18, 21, 26, 66, 99, 99, 99, 99,
   24, 26, 56, 99, 99, 99, 99, 99,
   47, 66, 99, 99, 99, 99, 99, 99] ++ List.replicate 32 99

/-- The step of coefficient `k`, in zigzag order, at quality 90: a fifth of the one in the table, rounded. -/
def fifth (table : List Nat) (k : Nat) : Nat :=
  let p := zigzag.getD k (0, 0)
  (2 * table.getD (8 * p.1 + p.2) 0 + 5) / 10

/-- T.81, A.3.3: the inverse transform of `F` (vertical, horizontal frequency) at row `y` and column `x`. -/
noncomputable def idct (F : Nat → Nat → ℝ) (y x : Nat) : ℝ :=
  1 / 4 * ∑ v ∈ Finset.range 8, ∑ u ∈ Finset.range 8,
    norm0 u * norm0 v * F v u * Real.cos ((2 * x + 1) * u * Real.pi / 16) * Real.cos ((2 * y + 1) * v * Real.pi / 16)

/-- T.81, A.3.4 and A.3.3: the sample in row `y` and column `x` of component `c` (minus 128) that the file stands for: the coefficients
of the block times their steps, transformed back. -/
noncomputable def Contents.recon (d : Contents) (c y x : Nat) : ℝ :=
  idct (fun v u => (d.step c (zigzag.idxOf (v, u)) : ℝ) * (d.coef c (y / 8) (x / 8) (zigzag.idxOf (v, u)) : ℝ)) (y % 8) (x % 8)

end FlatCV.Jpg
