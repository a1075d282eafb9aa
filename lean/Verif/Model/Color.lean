/-
Model of `src/parse_hex_color.c` and `src/convert_to_binary.c`.
C strings are lists of non-NUL characters.
-/
import Verif.Core.Mem

namespace FlatCV.Model

/-- parse_hex_color.c:40-42. -/
def isHexDigit (c : Char) : Bool :=
  ('0' ≤ c && c ≤ '9') || ('A' ≤ c && c ≤ 'F') || ('a' ≤ c && c ≤ 'f')

/-- Value of a hexadecimal digit as read by `sscanf("%x")`. -/
def hexVal (c : Char) : Nat :=
  if '0' ≤ c && c ≤ '9' then c.toNat - 48
  else if 'A' ≤ c && c ≤ 'F' then c.toNat - 55
  else c.toNat - 87

/-- `sscanf(hex, "%x", &v)` (parse_hex_color.c:53) on a string of hexadecimal digits.
The optional `0x` prefix of `%x` cannot occur: `x` was rejected at 39-49. -/
def scanHex (s : List Char) : Nat := s.foldl (fun v c => v * 16 + hexVal c) 0

/-- parse_hex_color.c:25-28. -/
def skipHash : List Char → List Char
  | c :: rest => if c = '#' then rest else c :: rest
  | [] => []

/-- parse_hex_color.c:17-59. -/
def fcv_parse_hex_color (hex_color : List Char) : UInt8 × UInt8 × UInt8 :=
  let hex := skipHash hex_color
  if hex.length ≠ 6 then (255, 255, 255)
  else if hex.any (fun c => !isHexDigit c) then (255, 255, 255)
  else
    let v := scanHex hex
    (u8 (v / 65536), u8 (v / 256), u8 v)

/-- convert_to_binary.c:29-82.  `width`, `height` are `int32_t`; the conversions to `size_t`
(44, 47) happen after they were checked to be positive. -/
def fcv_convert_to_binary (P : Plat) (image_data : Option (List UInt8)) (width height : Int)
    (foreground_hex background_hex : Option (List Char)) : HM (Option (Buf UInt8)) :=
  match image_data, foreground_hex, background_hex with
  | some d, some fg, some bg =>
    if width ≤ 0 ∨ height ≤ 0 then pure none
    else if width.toNat > P.szMax / height.toNat then pure none
    else
      let num_pixels := P.sz (width.toNat * height.toNat)
      allocFill num_pixels fun out =>
        let (r_fg, g_fg, b_fg) := fcv_parse_hex_color fg
        let (r_bg, g_bg, b_bg) := fcv_parse_hex_color bg
        forN num_pixels out fun i out => do
          let rgba_index := P.sz (i * 4)
          let r ← rdIn d rgba_index
          let g ← rdIn d (P.sz (rgba_index + 1))
          let b ← rdIn d (P.sz (rgba_index + 2))
          if r = r_fg ∧ g = g_fg ∧ b = b_fg then wr out i 255
          else if r = r_bg ∧ g = g_bg ∧ b = b_bg then wr out i 0
          else wr out i 0
  | _, _, _ => pure none

end FlatCV.Model
