/-
The PNM decoder of stb_image (PGM and PPM files with binary data), for a call with `req_comp` 4.  The host is little endian and `char` is
signed, as on x86-64.
-/
import Verif.Model.JpegProg

namespace FlatCV.Model

/-- Which requests for memory succeed: the data of the file, the image with four channels, the image with 8 bits. -/
structure PnmMem where
  data : Bool
  convert : Bool
  reduce : Bool

/-- stb_image.h:7540-7543 `stbi__pnm_isspace`. -/
def pnm_isspace (c : UInt8) : Bool := decide (c.toNat = 32) || decide (c.toNat = 9) || decide (c.toNat = 10) || decide (c.toNat = 11) ||
  decide (c.toNat = 12) || decide (c.toNat = 13)

/-- stb_image.h:7559-7562 `stbi__pnm_isdigit`. -/
def pnm_isdigit (c : UInt8) : Bool := decide (48 ≤ c.toNat ∧ c.toNat ≤ 57)

/-- stb_image.h:7548-7549: the loop over spaces.  The first argument counts the rounds that are left. -/
def pnmSpaces (feof : Ctx → Bool) : Nat → UInt8 → Ctx → CM (UInt8 × Ctx)
  | 0, _, _ => .error .diverge
  | n + 1, c, s => if !at_eof feof s && pnm_isspace c then pnmSpaces feof n (get8 s).1 (get8 s).2 else .ok (c, s)

/-- stb_image.h:7554-7555: the loop over a comment. -/
def pnmComment (feof : Ctx → Bool) : Nat → UInt8 → Ctx → CM (UInt8 × Ctx)
  | 0, _, _ => .error .diverge
  | n + 1, c, s => if !at_eof feof s && (decide (c ≠ 10) && decide (c ≠ 13)) then pnmComment feof n (get8 s).1 (get8 s).2 else .ok (c, s)

/-- stb_image.h:7545-7557 `stbi__pnm_skip_whitespace`. -/
def pnmSkip (feof : Ctx → Bool) : Nat → UInt8 → Ctx → CM (UInt8 × Ctx)
  | 0, _, _ => .error .diverge
  | n + 1, c, s => do
    let r ← pnmSpaces feof s.fuel c s
    if at_eof feof r.2 || decide (r.1 ≠ 35) then pure r
    else do
      let r ← pnmComment feof r.2.fuel r.1 r.2
      pnmSkip feof n r.1 r.2

/-- stb_image.h:7564-7576 `stbi__pnm_getinteger`: the loop. -/
def pnmDigits (feof : Ctx → Bool) : Nat → Nat → UInt8 → Ctx → CM (Nat × UInt8 × Ctx)
  | 0, _, _, _ => .error .diverge
  | n + 1, v, c, s =>
    if !at_eof feof s && pnm_isdigit c then do
      let t ← i32 ((v : Int) * 10)
      let v ← i32 (t + ((c.toNat : Int) - 48))
      if 214748364 < v.toNat ∨ (v.toNat = 214748364 ∧ 55 < (get8 s).1.toNat ∧ (get8 s).1.toNat < 128) then .ok (0, (get8 s).1, (get8 s).2)
      else pnmDigits feof n v.toNat (get8 s).1 (get8 s).2
    else .ok (v, c, s)

/-- The result of `stbi__pnm_info`: bits per channel, width, height, channels; and the stream behind the header. -/
structure PnmHead where
  bits : Nat
  x : Nat
  y : Nat
  n : Nat
  s : Ctx

/-- stb_image.h:7494-7504 `stbi__pnm_test`; 7588-7594 is the same. -/
def pnm_test (s : Ctx) : Bool :=
  !(decide ((get8 s).1 ≠ 80) || (decide ((get8 (get8 s).2).1 ≠ 53) && decide ((get8 (get8 s).2).1 ≠ 54)))

/-- stb_image.h:7598-7616: the header after the identifier. -/
def pnmHeader (feof : Ctx → Bool) (n : Nat) (s : Ctx) : CM (Option PnmHead) := do
  let r ← pnmSkip feof (s.fuel) (get8 s).1 (get8 s).2
  let w ← pnmDigits feof r.2.fuel 0 r.1 r.2
  if w.1 = 0 then pure none
  else do
    let r ← pnmSkip feof w.2.2.fuel w.2.1 w.2.2
    let h ← pnmDigits feof r.2.fuel 0 r.1 r.2
    if h.1 = 0 then pure none
    else do
      let r ← pnmSkip feof h.2.2.fuel h.2.1 h.2.2
      let m ← pnmDigits feof r.2.fuel 0 r.1 r.2
      if 65535 < m.1 then pure none
      else if 255 < m.1 then pure (some ⟨16, w.1, h.1, n, m.2.2⟩)
      else pure (some ⟨8, w.1, h.1, n, m.2.2⟩)

/-- stb_image.h:7578-7617 `stbi__pnm_info`; `stbi__rewind` leads back to the start because at most two bytes were read. -/
def pnm_info (feof : Ctx → Bool) (s : Ctx) : CM (Option PnmHead) :=
  if pnm_test s then pnmHeader feof (if (get8 (get8 s).2).1 = 54 then 3 else 1) (get8 (get8 s).2).2 else pure none

/-- stb_image.h:1039-1044 `stbi__mad4sizes_valid`. -/
def mad4ok (a b c d add : Nat) : Bool := mul2ok a b && mul2ok (a * b) c && mul2ok (a * b * c) d && addok (a * b * c * d) add

/-- The data seen as `stbi__uint16`. -/
def words (d : List UInt8) : Cells Nat := (List.range (d.length / 2)).map fun k => some ((d.getD (2 * k) 0).toNat + 256 * (d.getD (2 * k + 1) 0).toNat)

/-- stb_image.h:7529-7536, with 1755-1797 `stbi__convert_format`, 1812-1854 `stbi__convert_format16` and 1190-1204 `stbi__convert_16_to_8`. -/
def pnmConvert (m : PnmMem) (h : PnmHead) (d : List UInt8) : CM (Option Loaded) :=
  if h.bits = 16 then
    if !m.convert then pure none
    else do
      let t ← toFour (h.x * h.y) h.n 65535 (words d) (List.replicate (u32 (4 * h.x * h.y * 2) / 2) none)
      let wh ← i32 ((h.x : Int) * h.y)
      let len ← i32 (wh * 4)
      if m.reduce then do
        let r ← forN len.toNat (List.replicate len.toNat none) fun i r => do
          let v ← rd t i
          wr r i (v / 256 % 256)
        pure (some ⟨h.x, h.y, h.n, asBytes r⟩)
      else pure none
  else if !(mad3ok 4 h.x h.y 0 && m.convert) then pure none
  else do
    let t ← toFour (h.x * h.y) h.n 255 (d.map fun b => some b.toNat) (List.replicate (4 * h.x * h.y) none)
    pure (some ⟨h.x, h.y, h.n, asBytes t⟩)

/-- stb_image.h:7515-7537. -/
def pnmPixels (m : PnmMem) (h : PnmHead) : CM (Option Loaded) :=
  if 16777216 < h.y then pure none
  else if 16777216 < h.x then pure none
  else if !(mad4ok h.n h.x h.y (h.bits / 8) 0) then pure none
  else if !m.data then pure none
  else match (getn h.s (h.n * h.x * h.y * (h.bits / 8))).1 with
    | none => pure none
    | some d => pnmConvert m h d

/-- stb_image.h:7506-7538 `stbi__pnm_load` and 1250-1272 `stbi__load_and_postprocess_8bit`. -/
def pnm_load (m : PnmMem) (feof : Ctx → Bool) (s : Ctx) : CM (Option Loaded) := do
  match ← pnm_info feof s with
  | none => pure none
  | some h => pnmPixels m h

/-- stb_image.h:1137-1188 `stbi__load_main` for files: a PNG, JPEG or PNM file, or left to the other decoders. -/
def stbi_load_pnm (pm : PngMem) (mem : JpegMem) (cm : Nat → Bool) (nm : PnmMem) (feof : Ctx → Bool) (other : CM (Option Loaded)) (file : List UInt8) :
    CM (Option Loaded) :=
  stbi_load_file pm mem cm feof (if pnm_test (start_file file) then pnm_load nm feof (start_file file) else other) file

end FlatCV.Model
