/-
How stb_image chooses a decoder for a file: the tests of `stbi__load_main`, with what rewinding leaves of a short file.
-/
import Verif.Model.Pnm

namespace FlatCV.Model

/-- The first buffer of a file (`buffer_start` up to `img_buffer_original_end`) and `read_from_callbacks`.  The tests look at most at the first 92
bytes, so a file of 128 bytes or more is never read on; the one exception, the test for JPEG on a file that starts with 127 or more bytes FF, is not modelled. -/
structure Front where
  bytes : List UInt8
  live : Bool

/-- stb_image.h:836-846 `stbi__start_callbacks`: the first buffer is filled; for an empty file it is one byte 0. -/
def frontOf (file : List UInt8) : Front := if file = [] then ⟨[0], false⟩ else ⟨file.take 128, true⟩

/-- stb_image.h:1614-1623 `stbi__get8` at position `i`. -/
def Front.byte (f : Front) (i : Nat) : UInt8 := f.bytes.getD i 0

/-- stb_image.h:886-893 `stbi__rewind` after reading `k` bytes: reading on behind the end of the file has put a 0 over the first byte (stb_image.h:1597-1612
`stbi__refill_buffer`), and is not tried again. -/
def Front.back (f : Front) (k : Nat) : Front := if f.bytes.length < k ∧ f.live = true then ⟨0 :: f.bytes.tail, false⟩ else f

/-- The bytes from position `k` on are compared with `l` until they differ: the result, and the bytes read up to then. -/
def matchBytes : List UInt8 → Nat → Front → Bool × Nat
  | [], k, _ => (true, k)
  | b :: l, k, f => if f.byte k = b then matchBytes l (k + 1) f else (false, k + 1)

/-- stb_image.h:4621-4628 `stbi__check_png_header`. -/
def pngFront (f : Front) : Bool × Nat := matchBytes [137, 80, 78, 71, 13, 10, 26, 10] 0 f

/-- stb_image.h:5346-5359 `stbi__bmp_test_raw`. -/
def bmpFront (f : Front) : Bool × Nat :=
  if (matchBytes [66, 77] 0 f).1 then
    let sz := (f.byte 14).toNat + 256 * (f.byte 15).toNat + 65536 * (f.byte 16).toNat + 16777216 * (f.byte 17).toNat
    (decide (sz = 12 ∨ sz = 40 ∨ sz = 56 ∨ sz = 108 ∨ sz = 124), 18)
  else matchBytes [66, 77] 0 f

/-- stb_image.h:6580-6588 `stbi__gif_test_raw`. -/
def gifFront (f : Front) : Bool × Nat :=
  if (matchBytes [71, 73, 70, 56] 0 f).1 then
    if f.byte 4 = 57 ∨ f.byte 4 = 55 then (decide (f.byte 5 = 97), 6) else (false, 5)
  else matchBytes [71, 73, 70, 56] 0 f

/-- stb_image.h:6081-6086 `stbi__psd_test`: four bytes are always read. -/
def psdFront (f : Front) : Bool × Nat := ((matchBytes [56, 66, 80, 83] 0 f).1, 4)

/-- stb_image.h:6336-6360 `stbi__pic_test_core`. -/
def picFront (f : Front) : Bool × Nat :=
  if (matchBytes [0x53, 0x80, 0xF6, 0x34] 0 f).1 then matchBytes [80, 73, 67, 84] 88 f else matchBytes [0x53, 0x80, 0xF6, 0x34] 0 f

/-- stb_image.h:4047-4058 `stbi__jpeg_test` with 2919-2928 `stbi__get_marker`; `mem`: there is memory. -/
def jpegFront (mem : Bool) (f : Front) : Bool × Nat :=
  if mem then
    if f.byte 0 = 0xFF then
      let n := (f.bytes.takeWhile (· = 0xFF)).length
      (decide (f.byte n = 0xD8), n + 1)
    else (false, 1)
  else (false, 0)

/-- stb_image.h:7494-7504 `stbi__pnm_test`. -/
def pnmFront (f : Front) : Bool × Nat := (decide (f.byte 0 = 80 ∧ (f.byte 1 = 53 ∨ f.byte 1 = 54)), 2)

/-- stb_image.h:7087-7106 `stbi__hdr_test`: `#?RADIANCE` or `#?RGBE`, and a line feed. -/
def hdrFront (f : Front) : Bool × Front :=
  let r := matchBytes [35, 63, 82, 65, 68, 73, 65, 78, 67, 69, 10] 0 f
  if r.1 then (true, f.back r.2)
  else
    let f := f.back r.2
    let r := matchBytes [35, 63, 82, 71, 66, 69, 10] 0 f
    (r.1, f.back r.2)

/-- stb_image.h:5838-5842: width, height and bits per pixel of a TGA file. -/
def tgaTail (colour : UInt8) (f : Front) : Bool :=
  let w := (f.byte 12).toNat + 256 * (f.byte 13).toNat
  let h := (f.byte 14).toNat + 256 * (f.byte 15).toNat
  let sz := f.byte 16
  if w < 1 then false
  else if h < 1 then false
  else if colour = 1 ∧ sz ≠ 8 ∧ sz ≠ 16 then false
  else decide (sz = 8 ∨ sz = 15 ∨ sz = 16 ∨ sz = 24 ∨ sz = 32)

/-- stb_image.h:5820-5849 `stbi__tga_test`. -/
def tgaFront (f : Front) : Bool :=
  if 1 < f.byte 1 then false
  else if f.byte 1 = 1 then
    if f.byte 2 ≠ 1 ∧ f.byte 2 ≠ 9 then false
    else if f.byte 7 ≠ 8 ∧ f.byte 7 ≠ 15 ∧ f.byte 7 ≠ 16 ∧ f.byte 7 ≠ 24 ∧ f.byte 7 ≠ 32 then false
    else tgaTail 1 f
  else if f.byte 2 ≠ 2 ∧ f.byte 2 ≠ 3 ∧ f.byte 2 ≠ 10 ∧ f.byte 2 ≠ 11 then false
  else tgaTail (f.byte 1) f

/-- The decoders. -/
inductive Format
  | png | bmp | gif | psd | pic | jpeg | pnm | hdr | tga | unknown
deriving DecidableEq

/-- stb_image.h:1146-1187: the tests one after the other; every test rewinds. -/
def detect (mem : Bool) (file : List UInt8) : Format :=
  let f := frontOf file
  if (pngFront f).1 then .png else
  let f := f.back (pngFront f).2
  if (bmpFront f).1 then .bmp else
  let f := f.back (bmpFront f).2
  if (gifFront f).1 then .gif else
  let f := f.back (gifFront f).2
  if (psdFront f).1 then .psd else
  let f := f.back (psdFront f).2
  if (picFront f).1 then .pic else
  let f := f.back (picFront f).2
  if (jpegFront mem f).1 then .jpeg else
  let f := f.back (jpegFront mem f).2
  if (pnmFront f).1 then .pnm else
  let f := f.back (pnmFront f).2
  if (hdrFront f).1 then .hdr else
  let f := (hdrFront f).2
  if tgaFront f then .tga else .unknown

/-- stb_image.h:1137-1188 `stbi__load_main`: `other` are the decoders for BMP, GIF, PSD, PIC, HDR and TGA files. -/
def stbi_load_all (pm : PngMem) (mem : JpegMem) (cm : Nat → Bool) (nm : PnmMem) (feof : Ctx → Bool) (other : Format → CM (Option Loaded)) (file : List UInt8) :
    CM (Option Loaded) :=
  match detect mem.test file with
  | .png => do_png pm (start_file file)
  | .jpeg => if mem.state then load_jpeg_image mem feof (load_prog_image mem cm feof (start_file file)) (start_file file) else pure none
  | .pnm => pnm_load nm feof (start_file file)
  | .unknown => pure none
  | d => other d

end FlatCV.Model
