/-
How a PNG file is read: RFC 1950 (zlib), RFC 1951 (DEFLATE) and RFC 2083 (PNG), as functions on lists of bytes and bits.
The reader knows the parts of the formats that occur in files with 8 bits for each channel, without palette and interlacing:
stored blocks and blocks with the fixed code, the chunks IHDR, IDAT and IEND.  Other files are refused, so every file that
this reader accepts means the same to every PNG reader.
-/
import Verif.Core.Num

namespace FlatCV.Png

/-! ### Bits -/

/-- The bits of a byte, the least significant first (RFC 1951, 3.1.1). -/
def bitsOfByte (b : UInt8) : List Bool := (List.range 8).map fun i => b.toNat.testBit i

def bitsOf (l : List UInt8) : List Bool := l.flatMap bitsOfByte

/-- A number, the least significant bit first. -/
def num : List Bool → Nat
  | [] => 0
  | b :: l => b.toNat + 2 * num l

/-- A Huffman code, the most significant bit first. -/
def msb (l : List Bool) : Nat := l.foldl (fun a b => 2 * a + b.toNat) 0

/-- The next `n` bits as a number. -/
def takeNum (n : Nat) (bs : List Bool) : Option (Nat × List Bool) :=
  if n ≤ bs.length then some (num (bs.take n), bs.drop n) else none

/-! ### DEFLATE -/

/-- RFC 1951, 3.2.6: the fixed code for literals and lengths. -/
def fixedSym (bs : List Bool) : Option (Nat × List Bool) :=
  if 7 ≤ bs.length ∧ msb (bs.take 7) ≤ 23 then some (256 + msb (bs.take 7), bs.drop 7)
  else if 8 ≤ bs.length ∧ 48 ≤ msb (bs.take 8) ∧ msb (bs.take 8) ≤ 191 then some (msb (bs.take 8) - 48, bs.drop 8)
  else if 8 ≤ bs.length ∧ 192 ≤ msb (bs.take 8) ∧ msb (bs.take 8) ≤ 199 then some (280 + (msb (bs.take 8) - 192), bs.drop 8)
  else if 9 ≤ bs.length ∧ 400 ≤ msb (bs.take 9) then some (144 + (msb (bs.take 9) - 400), bs.drop 9)
  else none

/-- RFC 1951, 3.2.5: first length and number of extra bits of the length codes from 257 on. -/
def lengthCodes : List (Nat × Nat) :=
  [(3, 0), (4, 0), (5, 0), (6, 0), (7, 0), (8, 0), (9, 0), (10, 0), (11, 1), (13, 1), (15, 1), (17, 1), (19, 2), (23, 2), (27, 2),
   (31, 2), (35, 3), (43, 3), (51, 3), (59, 3), (67, 4), (83, 4), (99, 4), (115, 4), (131, 5), (163, 5), (195, 5), (227, 5), (258, 0)]

/-- RFC 1951, 3.2.5: first distance and number of extra bits of the distance codes. -/
def distCodes : List (Nat × Nat) :=
  [(1, 0), (2, 0), (3, 0), (4, 0), (5, 1), (7, 1), (9, 2), (13, 2), (17, 3), (25, 3), (33, 4), (49, 4), (65, 5), (97, 5), (129, 6),
   (193, 6), (257, 7), (385, 7), (513, 8), (769, 8), (1025, 9), (1537, 9), (2049, 10), (3073, 10), (4097, 11), (6145, 11), (8193, 12),
   (12289, 12), (16385, 13), (24577, 13)]

/-- Append `n` bytes, each the one `d` bytes back. -/
def copyBack (d : Nat) : Nat → List UInt8 → Option (List UInt8)
  | 0, out => some out
  | n + 1, out => if 0 < d ∧ d ≤ out.length then copyBack d n (out ++ [out.getD (out.length - d) 0]) else none

/-- What a block consists of: bytes, the end, repetitions of `n` bytes from `d` bytes back. -/
inductive Sym where
  | literal (b : UInt8)
  | stop
  | copy (d n : Nat)

/-- RFC 1951, 3.2.5: a distance code of five bits with its extra bits. -/
def readDist (bs : List Bool) : Option (Nat × List Bool) :=
  if 5 ≤ bs.length then
    match distCodes[msb (bs.take 5)]? with
    | none => none
    | some (db, de) =>
      match takeNum de (bs.drop 5) with
      | none => none
      | some (d, bs) => some (db + d, bs)
  else none

/-- A length code with its extra bits. -/
def readLength (s : Nat) (bs : List Bool) : Option (Nat × List Bool) :=
  lengthCodes[s - 257]?.bind fun c => (takeNum c.2 bs).map fun r => (c.1 + r.1, r.2)

/-- RFC 1951, 3.2.3: the next symbol of a block with the fixed code. -/
def readSym (bs : List Bool) : Option (Sym × List Bool) :=
  match fixedSym bs with
  | none => none
  | some (s, bs) =>
    if s < 256 then some (.literal (UInt8.ofNat s), bs)
    else if s = 256 then some (.stop, bs)
    else
      match readLength s bs with
      | none => none
      | some (n, bs) =>
        match readDist bs with
        | none => none
        | some (d, bs) => some (.copy d n, bs)

/-- The symbols of a block with the fixed code, after the output `out`; what follows the block and the output. -/
def inflateSyms : Nat → List Bool → List UInt8 → Option (List Bool × List UInt8)
  | 0, _, _ => none
  | f + 1, bs, out =>
    match readSym bs with
    | none => none
    | some (.literal b, bs) => inflateSyms f bs (out ++ [b])
    | some (.stop, bs) => some (bs, out)
    | some (.copy d n, bs) =>
      match copyBack d n out with
      | none => none
      | some out => inflateSyms f bs out

/-- `n` bytes, starting at a byte boundary. -/
def takeBytes : Nat → List Bool → Option (List UInt8 × List Bool)
  | 0, bs => some ([], bs)
  | n + 1, bs =>
    match takeNum 8 bs with
    | none => none
    | some (v, bs) =>
      match takeBytes n bs with
      | none => none
      | some (l, bs) => some (UInt8.ofNat v :: l, bs)

/-- RFC 1951, 3.2.4: a stored block.  The rest of the byte is skipped; the stream consists of whole bytes. -/
def inflateStored (bs : List Bool) (out : List UInt8) : Option (List Bool × List UInt8) :=
  match takeNum 16 (bs.drop (bs.length % 8)) with
  | none => none
  | some (len, bs) =>
    match takeNum 16 bs with
    | none => none
    | some (nlen, bs) =>
      if len + nlen = 65535 then
        match takeBytes len bs with
        | none => none
        | some (l, bs) => some (bs, out ++ l)
      else none

/-- RFC 1951, 3.2.3: the blocks up to the final one. -/
def inflateBlocks : Nat → List Bool → List UInt8 → Option (List Bool × List UInt8)
  | 0, _, _ => none
  | f + 1, bs, out =>
    match takeNum 1 bs with
    | none => none
    | some (final, bs) =>
      match takeNum 2 bs with
      | none => none
      | some (type, bs) =>
        match (if type = 0 then inflateStored bs out else if type = 1 then inflateSyms bs.length bs out else none) with
        | none => none
        | some (bs, out) => if final = 1 then some (bs, out) else inflateBlocks f bs out

/-! ### zlib -/

/-- RFC 1950, 8.2: the two sums of Adler-32. -/
def adlerSums (l : List UInt8) : Nat × Nat :=
  l.foldl (fun s b => ((s.1 + b.toNat) % 65521, (s.2 + (s.1 + b.toNat) % 65521) % 65521)) (1, 0)

/-- Two bytes, the more significant first. -/
def be16 (n : Nat) : List UInt8 := [UInt8.ofNat (n / 256), UInt8.ofNat n]

/-- Four bytes, the most significant first. -/
def be32 (n : Nat) : List UInt8 := [UInt8.ofNat (n / 16777216), UInt8.ofNat (n / 65536), UInt8.ofNat (n / 256), UInt8.ofNat n]

def adler32 (l : List UInt8) : List UInt8 := be16 (adlerSums l).2 ++ be16 (adlerSums l).1

/-- RFC 1950: two bytes of header, the compressed data, the checksum of the original data. -/
def zlibRead (l : List UInt8) : Option (List UInt8) :=
  match l with
  | cmf :: flg :: body =>
    if cmf.toNat % 16 = 8 ∧ cmf.toNat / 16 ≤ 7 ∧ (cmf.toNat * 256 + flg.toNat) % 31 = 0 ∧ flg.toNat.testBit 5 = false then
      match inflateBlocks (bitsOf body).length (bitsOf body) [] with
      | none => none
      | some (rest, out) => if rest.drop (rest.length % 8) = bitsOf (adler32 out) then some out else none
    else none
  | _ => none

/-! ### PNG -/

/-- One step of the CRC: division by the polynomial, in reversed bit order. -/
def crcStep (c : Nat) : Nat := if c % 2 = 1 then (c / 2) ^^^ 0xEDB88320 else c / 2

/-- RFC 2083, 15: eight steps for each byte, starting with and finally complementing all ones. -/
def crc32 (l : List UInt8) : Nat :=
  (l.foldl (fun c b => crcStep (crcStep (crcStep (crcStep (crcStep (crcStep (crcStep (crcStep (c ^^^ b.toNat))))))))) 0xFFFFFFFF) ^^^
    0xFFFFFFFF

/-- The type of a chunk as bytes. -/
def tag (s : String) : List UInt8 := s.toList.map fun c => UInt8.ofNat c.toNat

/-- The number in the first four bytes. -/
def readBe32 : List UInt8 → Option (Nat × List UInt8)
  | a :: b :: c :: d :: l => some (a.toNat * 16777216 + b.toNat * 65536 + c.toNat * 256 + d.toNat, l)
  | _ => none

/-- RFC 2083, 3.2: a chunk with a correct CRC: type, contents, what follows. -/
def readChunk (l : List UInt8) : Option (List UInt8 × List UInt8 × List UInt8) :=
  match readBe32 l with
  | none => none
  | some (n, l) =>
    if n + 8 ≤ l.length then
      match readBe32 (l.drop (4 + n)) with
      | none => none
      | some (crc, rest) => if crc = crc32 (l.take (4 + n)) then some (l.take 4, (l.take (4 + n)).drop 4, rest) else none
    else none

/-- The contents of the IDAT chunks up to IEND, which must be the end. -/
def readData : Nat → List UInt8 → Option (List UInt8)
  | 0, _ => none
  | f + 1, l =>
    match readChunk l with
    | none => none
    | some (type, data, rest) =>
      if type = tag "IEND" then (if data = [] ∧ rest = [] then some [] else none)
      else if type = tag "IDAT" then
        match readData f rest with
        | none => none
        | some more => some (data ++ more)
      else none

/-- RFC 2083, 6.6. -/
def paeth (a b c : Nat) : Nat :=
  let p : Int := a + b - c
  let pa := (p - a).natAbs
  let pb := (p - b).natAbs
  let pc := (p - c).natAbs
  if pa ≤ pb ∧ pa ≤ pc then a else if pb ≤ pc then b else c

/-- RFC 2083, 6: the prediction of a byte from the corresponding bytes to the left, above, and above the left one. -/
def predict (type a b c : Nat) : Option Nat :=
  match type with
  | 0 => some 0
  | 1 => some a
  | 2 => some b
  | 3 => some ((a + b) / 2)
  | 4 => some (paeth a b c)
  | _ => none

/-- The next byte of a row, `done` being the row so far. -/
def unfilterByte (bpp type : Nat) (prior done : List UInt8) (v : UInt8) : Option UInt8 :=
  let x := done.length
  let a := if bpp ≤ x then (done.getD (x - bpp) 0).toNat else 0
  let b := (prior.getD x 0).toNat
  let c := if bpp ≤ x then (prior.getD (x - bpp) 0).toNat else 0
  (predict type a b c).map fun p => UInt8.ofNat (v.toNat + p)

def unfilterRow (bpp type : Nat) (prior : List UInt8) : List UInt8 → List UInt8 → Option (List UInt8)
  | done, [] => some done
  | done, v :: l =>
    match unfilterByte bpp type prior done v with
    | none => none
    | some u => unfilterRow bpp type prior (done ++ [u]) l

/-- `h` rows of `rb` bytes, each preceded by the byte that says how it is filtered; nothing may follow. -/
def unfilter (bpp rb : Nat) : Nat → List UInt8 → List UInt8 → Option (List UInt8)
  | 0, _, l => if l = [] then some [] else none
  | h + 1, prior, l =>
    match l with
    | [] => none
    | t :: l =>
      if rb ≤ l.length then
        match unfilterRow bpp t.toNat prior [] (l.take rb) with
        | none => none
        | some row =>
          match unfilter bpp rb h row (l.drop rb) with
          | none => none
          | some more => some (row ++ more)
      else none

/-- RFC 2083, 4.1.1: the number of channels of a colour type. -/
def channelsOf : Nat → Option Nat
  | 0 => some 1
  | 2 => some 3
  | 4 => some 2
  | 6 => some 4
  | _ => none

/-- An image: width, height, number of channels, samples. -/
structure Image where
  w : Nat
  h : Nat
  ch : Nat
  data : List UInt8
deriving DecidableEq

/-- The image in a PNG file. -/
def readPng (l : List UInt8) : Option Image :=
  if l.take 8 = [137, 80, 78, 71, 13, 10, 26, 10] then
    match readChunk (l.drop 8) with
    | none => none
    | some (type, hdr, rest) =>
      if type = tag "IHDR" then
        match readBe32 hdr with
        | none => none
        | some (w, hdr) =>
          match readBe32 hdr with
          | some (h, [depth, colour, compression, filter, interlace]) =>
            if depth = 8 ∧ compression = 0 ∧ filter = 0 ∧ interlace = 0 ∧ 0 < w ∧ 0 < h then
              (channelsOf colour.toNat).bind fun ch => (readData rest.length rest).bind fun z => (zlibRead z).bind fun raw =>
                (unfilter ch (w * ch) h (List.replicate (w * ch) 0) raw).map fun data => ⟨w, h, ch, data⟩
            else none
          | _ => none
      else none
  else none

/-- Sizes of images to be written: rows of less than 2^24 bytes, and at most 600 million bytes with one more byte for each row. -/
structure Fits (x y n : Nat) : Prop where
  x_pos : 0 < x
  y_pos : 0 < y
  n_pos : 0 < n
  n_le : n ≤ 4
  row : x * n < 16777216
  all : y * (x * n + 1) ≤ 600000000

end FlatCV.Png
