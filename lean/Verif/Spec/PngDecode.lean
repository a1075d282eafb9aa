/-
What a PNG file means (RFC 2083), for all colour types, bit depths, palettes, transparent colours and interlacing: the relation
between the bytes of a file and the pixels, each as red, green, blue and alpha of 8 bits.
-/
import Verif.Spec.Inflate

namespace FlatCV.Png

/-! ### The chunks -/

/-- RFC 2083, 3.2: length, type, data, CRC of type and data. -/
def pngChunk (type data : List UInt8) : List UInt8 := be32 data.length ++ type ++ data ++ be32 (crc32 (type ++ data))

/-- RFC 2083, 4.1.1. -/
structure Header where
  w : Nat
  h : Nat
  depth : Nat
  colour : Nat
  interlace : Nat

/-- The 13 bytes of IHDR. -/
def Header.bytes (d : Header) : List UInt8 :=
  be32 d.w ++ be32 d.h ++ [UInt8.ofNat d.depth, UInt8.ofNat d.colour, 0, 0, UInt8.ofNat d.interlace]

/-- RFC 2083, 4.1.1: the depths that the colour types allow. -/
def depthsOf : Nat → List Nat
  | 0 => [1, 2, 4, 8, 16]
  | 2 => [8, 16]
  | 3 => [1, 2, 4, 8]
  | 4 => [8, 16]
  | 6 => [8, 16]
  | _ => []

structure Header.Valid (d : Header) : Prop where
  w_pos : 0 < d.w
  h_pos : 0 < d.h
  w_lt : d.w < 2147483648
  h_lt : d.h < 2147483648
  depth : d.depth ∈ depthsOf d.colour
  interlace : d.interlace ≤ 1

/-- Samples of a pixel. -/
def Header.samples (d : Header) : Nat :=
  match d.colour with
  | 2 => 3
  | 4 => 2
  | 6 => 4
  | _ => 1

/-- RFC 2083, 3.3: a chunk that a decoder may ignore; tRNS is not among them here. -/
def Ancillary (c : List UInt8 × List UInt8) : Prop :=
  c.1.length = 4 ∧ (c.1.getD 0 0).toNat.testBit 5 = true ∧ c.1 ≠ tag "tRNS" ∧ c.2.length < 2147483648

/-- The chunks of a file in their order: the header, ancillary chunks with PLTE and tRNS among them if they are there, the data,
ancillary chunks, the end. -/
structure Parts where
  hd : Header
  a1 : List (List UInt8 × List UInt8)
  plte : Option (List UInt8)
  a2 : List (List UInt8 × List UInt8)
  trns : Option (List UInt8)
  a3 : List (List UInt8 × List UInt8)
  idat : List (List UInt8)
  a4 : List (List UInt8 × List UInt8)

def chunks (l : List (List UInt8 × List UInt8)) : List UInt8 := l.flatMap fun c => pngChunk c.1 c.2

def optChunk (type : List UInt8) (o : Option (List UInt8)) : List UInt8 := o.elim [] (pngChunk type)

/-- The file. -/
def Parts.bytes (p : Parts) : List UInt8 :=
  [137, 80, 78, 71, 13, 10, 26, 10] ++ pngChunk (tag "IHDR") p.hd.bytes ++ chunks p.a1 ++ optChunk (tag "PLTE") p.plte ++ chunks p.a2 ++
    optChunk (tag "tRNS") p.trns ++ chunks p.a3 ++ chunks (p.idat.map fun l => (tag "IDAT", l)) ++ chunks p.a4 ++ pngChunk (tag "IEND") []

/-- RFC 2083, 4.1.2: a palette has 1 to 256 entries; it is required for indexed colour and forbidden for grey. -/
def Parts.PlteValid (p : Parts) : Prop :=
  (∀ l, p.plte = some l → l.length % 3 = 0 ∧ 0 < l.length ∧ l.length ≤ 768 ∧ p.hd.colour ≠ 0 ∧ p.hd.colour ≠ 4) ∧
    (p.hd.colour = 3 → p.plte ≠ none)

/-- RFC 2083, 4.2.9: for grey and colour one transparent value, with as many bits as the samples have; for indexed colour no more
values than the palette has; otherwise forbidden. -/
def Parts.TrnsValid (p : Parts) : Prop :=
  ∀ l, p.trns = some l →
    (p.hd.colour = 0 ∧ l.length = 2 ∧ (l.getD 0 0).toNat * 256 + (l.getD 1 0).toNat < 2 ^ p.hd.depth) ∨
    (p.hd.colour = 2 ∧ l.length = 6 ∧ ∀ k, k < 3 → (l.getD (2 * k) 0).toNat * 256 + (l.getD (2 * k + 1) 0).toNat < 2 ^ p.hd.depth) ∨
    (p.hd.colour = 3 ∧ 3 * l.length ≤ (p.plte.getD []).length)

structure Parts.Valid (p : Parts) : Prop where
  hd : p.hd.Valid
  a1 : ∀ c ∈ p.a1, Ancillary c
  a2 : ∀ c ∈ p.a2, Ancillary c
  a3 : ∀ c ∈ p.a3, Ancillary c
  a4 : ∀ c ∈ p.a4, Ancillary c
  plte : p.PlteValid
  trns : p.TrnsValid
  idat : ∀ l ∈ p.idat, l.length < 2147483648

/-! ### The samples -/

/-- RFC 2083, 6: rows of `rb` bytes, each preceded by the type of its filter; the rows and what follows them. -/
def unfilterRows (bpp rb : Nat) : Nat → List UInt8 → List UInt8 → Option (List (List UInt8) × List UInt8)
  | 0, _, l => some ([], l)
  | h + 1, prior, l =>
    match l with
    | [] => none
    | t :: l =>
      if rb ≤ l.length then
        (unfilterRow bpp t.toNat prior [] (l.take rb)).bind fun row =>
          (unfilterRows bpp rb h row (l.drop rb)).map fun r => (row :: r.1, r.2)
      else none

/-- RFC 2083, 2.3: sample `i` of a row; samples of less than 8 bits start at the high end of a byte, those of 16 bits have the more
significant byte first. -/
def sampleAt (depth : Nat) (row : List UInt8) (i : Nat) : Nat :=
  if depth = 16 then (row.getD (2 * i) 0).toNat * 256 + (row.getD (2 * i + 1) 0).toNat
  else (row.getD (i * depth / 8) 0).toNat / 2 ^ (8 - depth - i * depth % 8) % 2 ^ depth

/-- The samples of an image by column, row and channel. -/
abbrev Samples := Nat → Nat → Nat → Nat

/-- An image of `w` times `h` pixels without interlacing, and the data after it. -/
def readPass (d : Header) (w h : Nat) (l : List UInt8) : Option (Samples × List UInt8) :=
  let rb := (w * d.samples * d.depth + 7) / 8
  (unfilterRows (max 1 (d.samples * d.depth / 8)) rb h (List.replicate rb 0) l).map fun r =>
    (fun x y c => sampleAt d.depth (r.1.getD y []) (x * d.samples + c), r.2)

/-- RFC 2083, 2.6: which of the seven passes has the pixel in column `x` and row `y` of each square of eight. -/
def adam7 : List (List Nat) :=
  [[0, 5, 3, 5, 1, 5, 3, 5],
   [6, 6, 6, 6, 6, 6, 6, 6],
   [4, 5, 4, 5, 4, 5, 4, 5],
   [6, 6, 6, 6, 6, 6, 6, 6],
   [2, 5, 3, 5, 2, 5, 3, 5],
   [6, 6, 6, 6, 6, 6, 6, 6],
   [4, 5, 4, 5, 4, 5, 4, 5],
   [6, 6, 6, 6, 6, 6, 6, 6]]

def passOf (x y : Nat) : Nat := (adam7.getD (y % 8) []).getD (x % 8) 0

/-- Each pass: first column, first row, steps between columns and rows. -/
def passGrid : List (Nat × Nat × Nat × Nat) :=
  [(0, 0, 8, 8), (4, 0, 8, 8), (0, 4, 4, 8), (2, 0, 4, 4), (0, 2, 2, 4), (1, 0, 2, 2), (0, 1, 1, 2)]

/-- How many of the columns (or rows) `o`, `o + s`, `o + 2 * s`, ... are less than `n`. -/
def gridCount (n o s : Nat) : Nat := (n + s - 1 - o) / s

/-- The passes from `k` on: an empty one has no data. -/
def readPasses (d : Header) : List (Nat × Nat × Nat × Nat) → List UInt8 → Option (List Samples × List UInt8)
  | [], l => some ([], l)
  | (xo, yo, xs, ys) :: g, l =>
    let w := gridCount d.w xo xs
    let h := gridCount d.h yo ys
    (if w = 0 ∨ h = 0 then some ((fun _ _ _ => 0), l) else readPass d w h l).bind fun r =>
      (readPasses d g r.2).map fun q => (r.1 :: q.1, q.2)

/-- The samples of the image from the decompressed data; nothing may follow. -/
def readSamples (d : Header) (l : List UInt8) : Option Samples :=
  if d.interlace = 0 then (readPass d d.w d.h l).bind fun r => if r.2 = [] then some r.1 else none
  else (readPasses d passGrid l).bind fun r => if r.2 = [] then
      some fun x y c =>
        let g := passGrid.getD (passOf x y) (0, 0, 1, 1)
        r.1.getD (passOf x y) (fun _ _ _ => 0) (x / g.2.2.1) (y / g.2.2.2) c
    else none

/-! ### The colours -/

/-- RFC 2083, 10.4 and 12: a sample as 8 bits. -/
def to8 (depth v : Nat) : Nat := if depth = 16 then v / 256 else v * 255 / (2 ^ depth - 1)

/-- Two bytes of tRNS. -/
def transValue (l : List UInt8) (k : Nat) : Nat := (l.getD (2 * k) 0).toNat * 256 + (l.getD (2 * k + 1) 0).toNat

/-- Red, green, blue and alpha of a pixel with samples `s`. -/
def Parts.rgba (p : Parts) (s : Nat → Nat) : Nat × Nat × Nat × Nat :=
  let v := fun c => to8 p.hd.depth (s c)
  match p.hd.colour with
  | 0 => (v 0, v 0, v 0, if p.trns.any (fun l => transValue l 0 = s 0) then 0 else 255)
  | 2 => (v 0, v 1, v 2, if p.trns.any (fun l => transValue l 0 = s 0 ∧ transValue l 1 = s 1 ∧ transValue l 2 = s 2) then 0 else 255)
  | 3 =>
    let e := fun c => ((p.plte.getD []).getD (3 * s 0 + c) 0).toNat
    (e 0, e 1, e 2, ((p.trns.getD []).getD (s 0) 255).toNat)
  | 4 => (v 0, v 0, v 0, v 1)
  | _ => (v 0, v 1, v 2, v 3)

/-- The bytes of `n` pixels, four for each. -/
def rgbaBytes (px : Nat → Nat × Nat × Nat × Nat) (n : Nat) : List UInt8 :=
  (List.range n).flatMap fun i => [UInt8.ofNat (px i).1, UInt8.ofNat (px i).2.1, UInt8.ofNat (px i).2.2.1, UInt8.ofNat (px i).2.2.2]

/-- `file` is a PNG file with parts `p` and samples `s`; with a palette all samples are in it. -/
structure IsPng (file : List UInt8) (p : Parts) (s : Samples) : Prop where
  bytes : file = p.bytes
  valid : p.Valid
  data : ∃ raw, zlibDecode p.idat.flatten = some raw ∧ readSamples p.hd raw = some s
  index : p.hd.colour = 3 → ∀ x y, x < p.hd.w → y < p.hd.h → 3 * s x y 0 < (p.plte.getD []).length

/-- The pixels of the image, by rows. -/
def Parts.image (p : Parts) (s : Samples) : List UInt8 :=
  rgbaBytes (fun i => p.rgba (s (i % p.hd.w) (i / p.hd.w))) (p.hd.w * p.hd.h)

/-- How many channels a file is said to have. -/
def Parts.channels (p : Parts) : Nat := (if p.hd.colour = 3 then 3 else p.hd.samples) + (if p.trns = none then 0 else 1)

/-- The pixels of an image with 8 bits for each channel as red, green, blue and alpha. -/
def imagePixel (img : Image) (i : Nat) : Nat × Nat × Nat × Nat :=
  let v := fun c => (img.data.getD (i * img.ch + c) 0).toNat
  match img.ch with
  | 1 => (v 0, v 0, v 0, 255)
  | 2 => (v 0, v 0, v 0, v 1)
  | 3 => (v 0, v 1, v 2, 255)
  | _ => (v 0, v 1, v 2, v 3)

end FlatCV.Png
