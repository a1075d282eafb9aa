/-
Model of `src/exif.c`.

A `FILE` opened with "rb" is its contents and a position.  `fopen` failing is `none`.  `fread`
returns a short count only at the end of the file (I/O errors in the middle of a file are not
modelled); `fseek` fails, without moving, exactly when the target is negative.  `long` is taken to
have 64 bits, so that `tiff_start + ifd_offset` (exif.c:81) cannot overflow.
-/
import Verif.Core.Num

namespace FlatCV.Model

/-- `fread(buf, 1, k, file)` at position `p`: the bytes if all `k` could be read, and the new
position.  No caller looks at the bytes of a short read. -/
def fread (f : List UInt8) (p k : Nat) : Option (List UInt8) × Nat :=
  if p + k ≤ f.length then (some ((f.drop p).take k), p + k) else (none, max p f.length)

/-- `fseek(file, off, SEEK_CUR)` at position `p`. -/
def fseekCur (p : Nat) (off : Int) : Nat := if (p : Int) + off < 0 then p else ((p : Int) + off).toNat

/-- exif.c:9-18. -/
def read_u16 (f : List UInt8) (le : Bool) (p : Nat) : Nat × Nat :=
  match fread f p 2 with
  | (some [a, b], p) =>
    if le then (a.toNat + b.toNat * 256, p) else (a.toNat * 256 + b.toNat, p)
  | (_, p) => (0, p)

/-- `b << 24` of a byte promoted to `int`: undefined when the result does not fit (exif.c:26,
28). -/
def shl24 (b : UInt8) : CM Nat :=
  if b.toNat < 128 then .ok (b.toNat * 16777216) else .error .signedOverflow

/-- exif.c:20-29.  The four shifted bytes do not overlap, so `|` is `+`. -/
def read_u32 (f : List UInt8) (le : Bool) (p : Nat) : CM (Nat × Nat) :=
  match fread f p 4 with
  | (some [a, b, c, d], p) =>
    if le then do
      let t ← shl24 d
      pure (a.toNat + b.toNat * 256 + c.toNat * 65536 + t, p)
    else do
      let t ← shl24 a
      pure (t + b.toNat * 65536 + c.toNat * 256 + d.toNat, p)
  | (_, p) => pure (0, p)

/-- exif.c:85-100: the entry loop; the state is the position and the result, if returned. -/
def ifdLoop (f : List UInt8) (le : Bool) (num_entries p : Nat) : CM (Nat × Option Nat) :=
  forBreak num_entries 0 (p, none) fun _ s => do
    let (tag, p) := read_u16 f le s.1
    let (_, p) := read_u16 f le p
    let (_, p) ← read_u32 f le p
    if tag = 0x0112 then
      let (orientation, p) := read_u16 f le p
      pure ((p, some orientation), true)
    else pure ((fseekCur p 4, none), false)

/-- `"Exif\0\0"` (exif.c:57). -/
def exifMagic : List UInt8 := [0x45, 0x78, 0x69, 0x66, 0, 0]

/-- exif.c:62-101, from `tiff_start = ftell(file)` on: `none` is the `break`. -/
def tiffPart (f : List UInt8) (tiff_start : Nat) : CM (Option Nat) :=
  match fread f tiff_start 2 with
  | (some [h0, h1], p) =>
    let is_little_endian := h0 = 0x49 && h1 = 0x49
    let is_big_endian := h0 = 0x4D && h1 = 0x4D
    if !is_little_endian && !is_big_endian then pure none
    else
      let (magic, p) := read_u16 f is_little_endian p
      if magic ≠ 42 then pure none
      else do
        let (ifd_offset, _) ← read_u32 f is_little_endian p
        let p := tiff_start + ifd_offset
        let (num_entries, p) := read_u16 f is_little_endian p
        let r ← ifdLoop f is_little_endian num_entries p
        pure r.2
  | _ => pure none

/-- exif.c:45-106: one round of the `while` loop.  The state is the position and the value
returned; the flag says whether the loop is left. -/
def exifStep (f : List UInt8) (s : Nat × Option Nat) : CM ((Nat × Option Nat) × Bool) :=
  match fread f s.1 2 with
  | (some [m0, m1], p) =>
    if m0 ≠ 0xFF then pure ((p, none), true)
    else if m1 = 0xD9 ∨ m1 = 0xDA then pure ((p, none), true)
    else
      let (size, p) := read_u16 f false p
      if m1 = 0xE1 then
        match fread f p 6 with
        | (some hdr, p) =>
          if hdr ≠ exifMagic then pure ((fseekCur p ((size : Int) - 2 - 6), none), false)
          else do
            let r ← tiffPart f p
            pure ((p, r), true)
        | (none, p) => pure ((p, none), true)
      else pure ((fseekCur p ((size : Int) - 2), none), false)
  | (_, p) => pure ((p, none), true)

/-- exif.c:31-114 with at most `fuel` rounds of the `while` loop. -/
def exifFuel (fuel : Nat) (file : Option (List UInt8)) : CM Int :=
  match file with
  | none => pure 1
  | some f =>
    match fread f 0 2 with
    | (some [h0, h1], p) =>
      if h0 ≠ 0xFF ∨ h1 ≠ 0xD8 then pure 1
      else do
        let r ← whileFuel fuel (p, none) (exifStep f)
        match r.2 with
        | some v => pure (v : Int)
        | none => pure 1
    | _ => pure 1

/-- exif.c:31-114.  A round that does not leave the loop and does not repeat for ever moves the
position forward (see `Lemmas/Exif.lean`), so more rounds than bytes are never needed. -/
def fcv_get_exif_orientation (file : Option (List UInt8)) : CM Int :=
  match file with
  | none => exifFuel 0 none
  | some f => exifFuel (f.length + 1) (some f)

end FlatCV.Model
