/-
JPEG/EXIF file layout.  Nothing here refers to the model.
-/

namespace FlatCV.Spec

/-- The two bytes of a 16-bit number. -/
def u16b (le : Bool) (n : Nat) : List UInt8 :=
  if le then [UInt8.ofNat n, UInt8.ofNat (n / 256)] else [UInt8.ofNat (n / 256), UInt8.ofNat n]

/-- The four bytes of a 32-bit number. -/
def u32b (le : Bool) (n : Nat) : List UInt8 :=
  if le then [UInt8.ofNat n, UInt8.ofNat (n / 256), UInt8.ofNat (n / 65536), UInt8.ofNat (n / 16777216)]
  else [UInt8.ofNat (n / 16777216), UInt8.ofNat (n / 65536), UInt8.ofNat (n / 256), UInt8.ofNat n]

/-- `"Exif\0\0"`. -/
def exifId : List UInt8 := [0x45, 0x78, 0x69, 0x66, 0x00, 0x00]

/-- A JPEG marker segment. -/
structure Seg where
  marker : UInt8
  payload : List UInt8

/-- Marker, big-endian length (which counts itself) and payload. -/
def Seg.bytes (s : Seg) : List UInt8 :=
  [0xFF, s.marker] ++ u16b false (s.payload.length + 2) ++ s.payload

/-- A segment with a valid length that is neither the end of the headers nor an EXIF block. -/
structure Seg.Plain (s : Seg) : Prop where
  len : s.payload.length + 2 < 65536
  notEOI : s.marker ≠ 0xD9
  notSOS : s.marker ≠ 0xDA
  notExif : s.marker = 0xE1 → ¬ exifId <+: s.payload

/-- An entry of an image file directory. -/
structure IfdEntry where
  tag : Nat
  type : Nat
  count : Nat
  value : List UInt8

/-- The twelve bytes of an entry. -/
def IfdEntry.bytes (le : Bool) (e : IfdEntry) : List UInt8 :=
  u16b le e.tag ++ u16b le e.type ++ u32b le e.count ++ e.value

/-- Field widths; the count is limited to `2^31`. -/
structure IfdEntry.Valid (e : IfdEntry) : Prop where
  tag : e.tag < 65536
  type : e.type < 65536
  count : e.count < 2147483648
  value : e.value.length = 4

/-- Byte order mark, magic 42 and offset of the first directory. -/
def tiffHeader (le : Bool) (off : Nat) : List UInt8 :=
  (if le then [0x49, 0x49] else [0x4D, 0x4D]) ++ u16b le 42 ++ u32b le off

/-- A directory of `n` entries that begins with `before`, then an orientation entry with value
`v` (16 bits, then two bytes of padding). -/
def ifdBytes (le : Bool) (n : Nat) (before : List IfdEntry) (type count v : Nat) : List UInt8 :=
  u16b le n ++ before.flatMap (IfdEntry.bytes le) ++
    (u16b le 0x0112 ++ u16b le type ++ u32b le count ++ u16b le v)

/-- The bytes `t` are a TIFF block in byte order `le` whose first directory stores
orientation `v`. -/
structure TiffWithOrientation (le : Bool) (t : List UInt8) (v : Nat) : Prop where
  intro ::
  spec : ∃ (off n : Nat) (before : List IfdEntry) (type count : Nat),
    tiffHeader le off <+: t ∧ off < 2147483648 ∧
    ifdBytes le n before type count v <+: t.drop off ∧
    before.length < n ∧ n < 65536 ∧ (∀ e ∈ before, e.Valid ∧ e.tag ≠ 0x0112) ∧
    type < 65536 ∧ count < 2147483648 ∧ v < 65536

/-- The headers of a JPEG file: start marker and plain segments. -/
def jpegHead (segs : List Seg) : List UInt8 := [0xFF, 0xD8] ++ segs.flatMap Seg.bytes

/-- A JPEG file with plain segments, then an EXIF segment whose TIFF block starts `t` (`len` are
the two length bytes of that segment; everything after the orientation entry is arbitrary). -/
def jpegWithExif (segs : List Seg) (l0 l1 : UInt8) (t : List UInt8) : List UInt8 :=
  jpegHead segs ++ ([0xFF, 0xE1, l0, l1] ++ exifId ++ t)

/-- Does the file end with `FF x` where `x` starts an ordinary segment? -/
def EndsInMarker (f : List UInt8) : Prop :=
  ∃ x, [0xFF, x] <:+ f ∧ x ≠ 0xD9 ∧ x ≠ 0xDA ∧ x ≠ 0xE1

end FlatCV.Spec
