/-
Model of the JPEG writer in stb_image_write.h (lines 1242-1628) as the program calls it (cli.c:1642): four bytes per pixel, quality 90,
`stbi__flip_vertically_on_write` at its initial value 0.  The branch for qualities above 90 (lines 1571-1593) is not modelled.

The values of type `float` are computed in binary32 without contraction.  The bytes handed to `s->func` are a list; what `fwrite`
makes of them is not modelled (the writer ignores its result).  `bitBuf` is represented by its 32 bits.
-/
import Verif.Core.Ieee
import Verif.Core.Mem

namespace FlatCV.Model

/-! ### Tables -/

/-- stb_image_write.h:1250-1251 `stbiw__jpg_ZigZag`. -/
def jpgZigZag : List Nat :=
  [0, 1, 5, 6, 14, 15, 27, 28, 2, 4, 7, 13, 16, 26, 29, 42, 3, 8, 12, 17, 25, 30, 41, 43, 9, 11, 18, 24, 31, 40, 44, 53,
   10, 19, 23, 32, 39, 45, 52, 54, 20, 22, 33, 38, 46, 51, 55, 60, 21, 34, 37, 47, 50, 56, 59, 61, 35, 36, 48, 49, 57, 58, 62, 63]

/-- stb_image_write.h:1400 `std_dc_luminance_nrcodes`. -/
def dcLumCodes : List UInt8 :=
  [0, 0, 1, 5, 1, 1, 1, 1, 1, 1, 0, 0, 0, 0, 0, 0, 0]

/-- stb_image_write.h:1401 `std_dc_luminance_values`. -/
def dcLumValues : List UInt8 :=
  [0, 1, 2, 3, 4, 5, 6, 7, 8, 9, 10, 11]

/-- stb_image_write.h:1402 `std_ac_luminance_nrcodes`. -/
def acLumCodes : List UInt8 :=
  [0, 0, 2, 1, 3, 3, 2, 4, 3, 5, 5, 4, 4, 0, 0, 1, 125]

/-- stb_image_write.h:1403-1411 `std_ac_luminance_values`. -/
def acLumValues : List UInt8 :=
  [1, 2, 3, 0, 4, 17, 5, 18, 33, 49, 65, 6, 19, 81, 97, 7, 34, 113, 20, 50, 129, 145, 161, 8, 35, 66, 177, 193, 21, 82, 209, 240,
   36, 51, 98, 114, 130, 9, 10, 22, 23, 24, 25, 26, 37, 38, 39, 40, 41, 42, 52, 53, 54, 55, 56, 57, 58, 67, 68, 69, 70, 71, 72, 73,
   74, 83, 84, 85, 86, 87, 88, 89, 90, 99, 100, 101, 102, 103, 104, 105, 106, 115, 116, 117, 118, 119, 120, 121, 122, 131, 132, 133, 134, 135, 136, 137,
   138, 146, 147, 148, 149, 150, 151, 152, 153, 154, 162, 163, 164, 165, 166, 167, 168, 169, 170, 178, 179, 180, 181, 182, 183, 184, 185, 186, 194, 195, 196, 197,
   198, 199, 200, 201, 202, 210, 211, 212, 213, 214, 215, 216, 217, 218, 225, 226, 227, 228, 229, 230, 231, 232, 233, 234, 241, 242, 243, 244, 245, 246, 247, 248,
   249, 250]

/-- stb_image_write.h:1412 `std_dc_chrominance_nrcodes`. -/
def dcChromCodes : List UInt8 :=
  [0, 0, 3, 1, 1, 1, 1, 1, 1, 1, 1, 1, 0, 0, 0, 0, 0]

/-- stb_image_write.h:1413 `std_dc_chrominance_values`. -/
def dcChromValues : List UInt8 :=
  [0, 1, 2, 3, 4, 5, 6, 7, 8, 9, 10, 11]

/-- stb_image_write.h:1414 `std_ac_chrominance_nrcodes`. -/
def acChromCodes : List UInt8 :=
  [0, 0, 2, 1, 2, 4, 4, 3, 4, 7, 5, 4, 4, 0, 1, 2, 119]

/-- stb_image_write.h:1415-1423 `std_ac_chrominance_values`. -/
def acChromValues : List UInt8 :=
  [0, 1, 2, 3, 17, 4, 5, 33, 49, 6, 18, 65, 81, 7, 97, 113, 19, 34, 50, 129, 8, 20, 66, 145, 161, 177, 193, 9, 35, 51, 82, 240,
   21, 98, 114, 209, 10, 22, 36, 52, 225, 37, 241, 23, 24, 25, 26, 38, 39, 40, 41, 42, 53, 54, 55, 56, 57, 58, 67, 68, 69, 70, 71, 72,
   73, 74, 83, 84, 85, 86, 87, 88, 89, 90, 99, 100, 101, 102, 103, 104, 105, 106, 115, 116, 117, 118, 119, 120, 121, 122, 130, 131, 132, 133, 134, 135,
   136, 137, 138, 146, 147, 148, 149, 150, 151, 152, 153, 154, 162, 163, 164, 165, 166, 167, 168, 169, 170, 178, 179, 180, 181, 182, 183, 184, 185, 186, 194, 195,
   196, 197, 198, 199, 200, 201, 202, 210, 211, 212, 213, 214, 215, 216, 217, 218, 226, 227, 228, 229, 230, 231, 232, 233, 234, 242, 243, 244, 245, 246, 247, 248,
   249, 250]

/-- stb_image_write.h:1425 `YDC_HT`; the entries not listed there are zero. -/
def YDC_HT : List (Nat × Nat) :=
  [(0, 2), (2, 3), (3, 3), (4, 3), (5, 3), (6, 3), (14, 4), (30, 5), (62, 6), (126, 7), (254, 8), (510, 9)] ++ List.replicate 244 (0, 0)

/-- stb_image_write.h:1426 `UVDC_HT`; the entries not listed there are zero. -/
def UVDC_HT : List (Nat × Nat) :=
  [(0, 2), (1, 2), (2, 2), (6, 3), (14, 4), (30, 5), (62, 6), (126, 7), (254, 8), (510, 9), (1022, 10), (2046, 11)] ++ List.replicate 244 (0, 0)

/-- stb_image_write.h:1427-1444 `YAC_HT`. -/
def YAC_HT : List (Nat × Nat) :=
  [(10, 4), (0, 2), (1, 2), (4, 3), (11, 4), (26, 5), (120, 7), (248, 8), (1014, 10), (65410, 16), (65411, 16), (0, 0),
   (0, 0), (0, 0), (0, 0), (0, 0), (0, 0), (12, 4), (27, 5), (121, 7), (502, 9), (2038, 11), (65412, 16), (65413, 16),
   (65414, 16), (65415, 16), (65416, 16), (0, 0), (0, 0), (0, 0), (0, 0), (0, 0), (0, 0), (28, 5), (249, 8), (1015, 10),
   (4084, 12), (65417, 16), (65418, 16), (65419, 16), (65420, 16), (65421, 16), (65422, 16), (0, 0), (0, 0), (0, 0), (0, 0), (0, 0),
   (0, 0), (58, 6), (503, 9), (4085, 12), (65423, 16), (65424, 16), (65425, 16), (65426, 16), (65427, 16), (65428, 16), (65429, 16), (0, 0),
   (0, 0), (0, 0), (0, 0), (0, 0), (0, 0), (59, 6), (1016, 10), (65430, 16), (65431, 16), (65432, 16), (65433, 16), (65434, 16),
   (65435, 16), (65436, 16), (65437, 16), (0, 0), (0, 0), (0, 0), (0, 0), (0, 0), (0, 0), (122, 7), (2039, 11), (65438, 16),
   (65439, 16), (65440, 16), (65441, 16), (65442, 16), (65443, 16), (65444, 16), (65445, 16), (0, 0), (0, 0), (0, 0), (0, 0), (0, 0),
   (0, 0), (123, 7), (4086, 12), (65446, 16), (65447, 16), (65448, 16), (65449, 16), (65450, 16), (65451, 16), (65452, 16), (65453, 16), (0, 0),
   (0, 0), (0, 0), (0, 0), (0, 0), (0, 0), (250, 8), (4087, 12), (65454, 16), (65455, 16), (65456, 16), (65457, 16), (65458, 16),
   (65459, 16), (65460, 16), (65461, 16), (0, 0), (0, 0), (0, 0), (0, 0), (0, 0), (0, 0), (504, 9), (32704, 15), (65462, 16),
   (65463, 16), (65464, 16), (65465, 16), (65466, 16), (65467, 16), (65468, 16), (65469, 16), (0, 0), (0, 0), (0, 0), (0, 0), (0, 0),
   (0, 0), (505, 9), (65470, 16), (65471, 16), (65472, 16), (65473, 16), (65474, 16), (65475, 16), (65476, 16), (65477, 16), (65478, 16), (0, 0),
   (0, 0), (0, 0), (0, 0), (0, 0), (0, 0), (506, 9), (65479, 16), (65480, 16), (65481, 16), (65482, 16), (65483, 16), (65484, 16),
   (65485, 16), (65486, 16), (65487, 16), (0, 0), (0, 0), (0, 0), (0, 0), (0, 0), (0, 0), (1017, 10), (65488, 16), (65489, 16),
   (65490, 16), (65491, 16), (65492, 16), (65493, 16), (65494, 16), (65495, 16), (65496, 16), (0, 0), (0, 0), (0, 0), (0, 0), (0, 0),
   (0, 0), (1018, 10), (65497, 16), (65498, 16), (65499, 16), (65500, 16), (65501, 16), (65502, 16), (65503, 16), (65504, 16), (65505, 16), (0, 0),
   (0, 0), (0, 0), (0, 0), (0, 0), (0, 0), (2040, 11), (65506, 16), (65507, 16), (65508, 16), (65509, 16), (65510, 16), (65511, 16),
   (65512, 16), (65513, 16), (65514, 16), (0, 0), (0, 0), (0, 0), (0, 0), (0, 0), (0, 0), (65515, 16), (65516, 16), (65517, 16),
   (65518, 16), (65519, 16), (65520, 16), (65521, 16), (65522, 16), (65523, 16), (65524, 16), (0, 0), (0, 0), (0, 0), (0, 0), (0, 0),
   (2041, 11), (65525, 16), (65526, 16), (65527, 16), (65528, 16), (65529, 16), (65530, 16), (65531, 16), (65532, 16), (65533, 16), (65534, 16), (0, 0),
   (0, 0), (0, 0), (0, 0), (0, 0)]

/-- stb_image_write.h:1445-1462 `UVAC_HT`. -/
def UVAC_HT : List (Nat × Nat) :=
  [(0, 2), (1, 2), (4, 3), (10, 4), (24, 5), (25, 5), (56, 6), (120, 7), (500, 9), (1014, 10), (4084, 12), (0, 0),
   (0, 0), (0, 0), (0, 0), (0, 0), (0, 0), (11, 4), (57, 6), (246, 8), (501, 9), (2038, 11), (4085, 12), (65416, 16),
   (65417, 16), (65418, 16), (65419, 16), (0, 0), (0, 0), (0, 0), (0, 0), (0, 0), (0, 0), (26, 5), (247, 8), (1015, 10),
   (4086, 12), (32706, 15), (65420, 16), (65421, 16), (65422, 16), (65423, 16), (65424, 16), (0, 0), (0, 0), (0, 0), (0, 0), (0, 0),
   (0, 0), (27, 5), (248, 8), (1016, 10), (4087, 12), (65425, 16), (65426, 16), (65427, 16), (65428, 16), (65429, 16), (65430, 16), (0, 0),
   (0, 0), (0, 0), (0, 0), (0, 0), (0, 0), (58, 6), (502, 9), (65431, 16), (65432, 16), (65433, 16), (65434, 16), (65435, 16),
   (65436, 16), (65437, 16), (65438, 16), (0, 0), (0, 0), (0, 0), (0, 0), (0, 0), (0, 0), (59, 6), (1017, 10), (65439, 16),
   (65440, 16), (65441, 16), (65442, 16), (65443, 16), (65444, 16), (65445, 16), (65446, 16), (0, 0), (0, 0), (0, 0), (0, 0), (0, 0),
   (0, 0), (121, 7), (2039, 11), (65447, 16), (65448, 16), (65449, 16), (65450, 16), (65451, 16), (65452, 16), (65453, 16), (65454, 16), (0, 0),
   (0, 0), (0, 0), (0, 0), (0, 0), (0, 0), (122, 7), (2040, 11), (65455, 16), (65456, 16), (65457, 16), (65458, 16), (65459, 16),
   (65460, 16), (65461, 16), (65462, 16), (0, 0), (0, 0), (0, 0), (0, 0), (0, 0), (0, 0), (249, 8), (65463, 16), (65464, 16),
   (65465, 16), (65466, 16), (65467, 16), (65468, 16), (65469, 16), (65470, 16), (65471, 16), (0, 0), (0, 0), (0, 0), (0, 0), (0, 0),
   (0, 0), (503, 9), (65472, 16), (65473, 16), (65474, 16), (65475, 16), (65476, 16), (65477, 16), (65478, 16), (65479, 16), (65480, 16), (0, 0),
   (0, 0), (0, 0), (0, 0), (0, 0), (0, 0), (504, 9), (65481, 16), (65482, 16), (65483, 16), (65484, 16), (65485, 16), (65486, 16),
   (65487, 16), (65488, 16), (65489, 16), (0, 0), (0, 0), (0, 0), (0, 0), (0, 0), (0, 0), (505, 9), (65490, 16), (65491, 16),
   (65492, 16), (65493, 16), (65494, 16), (65495, 16), (65496, 16), (65497, 16), (65498, 16), (0, 0), (0, 0), (0, 0), (0, 0), (0, 0),
   (0, 0), (506, 9), (65499, 16), (65500, 16), (65501, 16), (65502, 16), (65503, 16), (65504, 16), (65505, 16), (65506, 16), (65507, 16), (0, 0),
   (0, 0), (0, 0), (0, 0), (0, 0), (0, 0), (2041, 11), (65508, 16), (65509, 16), (65510, 16), (65511, 16), (65512, 16), (65513, 16),
   (65514, 16), (65515, 16), (65516, 16), (0, 0), (0, 0), (0, 0), (0, 0), (0, 0), (0, 0), (16352, 14), (65517, 16), (65518, 16),
   (65519, 16), (65520, 16), (65521, 16), (65522, 16), (65523, 16), (65524, 16), (65525, 16), (0, 0), (0, 0), (0, 0), (0, 0), (0, 0),
   (1018, 10), (32707, 15), (65526, 16), (65527, 16), (65528, 16), (65529, 16), (65530, 16), (65531, 16), (65532, 16), (65533, 16), (65534, 16), (0, 0),
   (0, 0), (0, 0), (0, 0), (0, 0)]

/-- stb_image_write.h:1463-1464 `YQT`. -/
def YQT : List Nat :=
  [16, 11, 10, 16, 24, 40, 51, 61, 12, 12, 14, 19, 26, 58, 60, 55, 14, 13, 16, 24, 40, 57, 69, 56, 14, 17, 22, 29, 51, 87, 80, 62,
   18, 22, 37, 56, 68, 109, 103, 77, 24, 35, 55, 64, 81, 104, 113, 92, 49, 64, 78, 87, 103, 121, 120, 101, 72, 92, 95, 98, 112, 100, 103, 99]

/-- stb_image_write.h:1465-1466 `UVQT`. -/
def UVQT : List Nat :=
  [17, 18, 24, 47, 99, 99, 99, 99, 18, 21, 26, 66, 99, 99, 99, 99, 24, 26, 56, 99, 99, 99, 99, 99, 47, 66, 99, 99, 99, 99, 99, 99,
   99, 99, 99, 99, 99, 99, 99, 99, 99, 99, 99, 99, 99, 99, 99, 99, 99, 99, 99, 99, 99, 99, 99, 99, 99, 99, 99, 99, 99, 99, 99, 99]

/-! ### Bits -/

/-- The bytes written so far, `bitBuf` and `bitCnt`. -/
structure JpgW where
  out : List UInt8
  buf : Nat
  cnt : Nat

/-- `bitBuf <<= 8`, stb_image_write.h:1263.  The shift is undefined if the result does not fit in an `int` (C11 6.5.7), and compilers make
it a shift of the 32 bits: the first for `strict`, else the second. -/
def shl8 (strict : Bool) (b : Nat) : CM Nat := if strict = true ∧ 8388608 ≤ b then .error .signedOverflow else .ok (u32 (b * 256))

/-- stb_image_write.h:1257-1265: the loop that writes whole bytes. -/
def jpgFlush (strict : Bool) (w : JpgW) : CM (JpgW × Bool) :=
  if 8 ≤ w.cnt then do
    let c := w.buf / 65536 % 256
    let out := w.out ++ [u8 c]
    let out := if c = 255 then out ++ [0] else out
    let b ← shl8 strict w.buf
    pure (⟨out, b, w.cnt - 8⟩, false)
  else pure (w, true)

/-- stb_image_write.h:1253-1268 `stbiw__jpg_writeBits`; `bs` is the value and the number of bits.  Shifting by a negative number is
undefined. -/
def stbiw_jpg_writeBits (strict : Bool) (bs : Nat × Nat) (w : JpgW) : CM JpgW :=
  if 24 < w.cnt + bs.2 then .error .signedOverflow
  else do
    let v ← i32 (bs.1 * 2 ^ (24 - (w.cnt + bs.2)) : Nat)
    whileFuel (w.cnt + bs.2 + 1) ⟨w.out, w.buf ||| v.toNat, w.cnt + bs.2⟩ (jpgFlush strict)

/-! ### The cosine transform -/

/-- A constant of type `float`. -/
def flt (q : ℚ) : Dbl := Fmt.b32.lift q

/-- `a + b` in `float`. -/
def fadd (a b : Dbl) : Dbl := Dbl.add Fmt.b32 a b

/-- `a - b` in `float`. -/
def fsub (a b : Dbl) : Dbl := Dbl.sub Fmt.b32 a b

/-- `a * b` in `float`. -/
def fmul (a b : Dbl) : Dbl := Dbl.mul Fmt.b32 a b

/-- Eight values. -/
structure Oct (α : Type) where
  d0 : α
  d1 : α
  d2 : α
  d3 : α
  d4 : α
  d5 : α
  d6 : α
  d7 : α

/-- stb_image_write.h:1270-1316 `stbiw__jpg_DCT`. -/
def stbiw_jpg_DCT (d : Oct Dbl) : Oct Dbl :=
  let tmp0 := fadd d.d0 d.d7
  let tmp7 := fsub d.d0 d.d7
  let tmp1 := fadd d.d1 d.d6
  let tmp6 := fsub d.d1 d.d6
  let tmp2 := fadd d.d2 d.d5
  let tmp5 := fsub d.d2 d.d5
  let tmp3 := fadd d.d3 d.d4
  let tmp4 := fsub d.d3 d.d4
  let tmp10 := fadd tmp0 tmp3
  let tmp13 := fsub tmp0 tmp3
  let tmp11 := fadd tmp1 tmp2
  let tmp12 := fsub tmp1 tmp2
  let d0 := fadd tmp10 tmp11
  let d4 := fsub tmp10 tmp11
  let z1 := fmul (fadd tmp12 tmp13) (flt (707106781 / 1000000000))
  let d2 := fadd tmp13 z1
  let d6 := fsub tmp13 z1
  let tmp10 := fadd tmp4 tmp5
  let tmp11 := fadd tmp5 tmp6
  let tmp12 := fadd tmp6 tmp7
  let z5 := fmul (fsub tmp10 tmp12) (flt (382683433 / 1000000000))
  let z2 := fadd (fmul tmp10 (flt (541196100 / 1000000000))) z5
  let z4 := fadd (fmul tmp12 (flt (1306562965 / 1000000000))) z5
  let z3 := fmul tmp11 (flt (707106781 / 1000000000))
  let z11 := fadd tmp7 z3
  let z13 := fsub tmp7 z3
  ⟨d0, fadd z11 z4, d2, fsub z13 z2, d4, fadd z13 z2, d6, fsub z11 z4⟩

/-- One call of `stbiw__jpg_DCT` in `stbiw__jpg_processDU` (stb_image_write.h:1336, 1340-1341): the eight values at `off`, `off + step`, … -/
def dctAt (cdu : List Dbl) (off step : Nat) : CM (List Dbl) := do
  let d0 ← rdIn cdu off
  let d1 ← rdIn cdu (off + step)
  let d2 ← rdIn cdu (off + step * 2)
  let d3 ← rdIn cdu (off + step * 3)
  let d4 ← rdIn cdu (off + step * 4)
  let d5 ← rdIn cdu (off + step * 5)
  let d6 ← rdIn cdu (off + step * 6)
  let d7 ← rdIn cdu (off + step * 7)
  let r := stbiw_jpg_DCT ⟨d0, d1, d2, d3, d4, d5, d6, d7⟩
  let cdu ← wrIn cdu (off + step * 5) r.d5
  let cdu ← wrIn cdu (off + step * 3) r.d3
  let cdu ← wrIn cdu (off + step) r.d1
  let cdu ← wrIn cdu (off + step * 7) r.d7
  let cdu ← wrIn cdu off r.d0
  let cdu ← wrIn cdu (off + step * 2) r.d2
  let cdu ← wrIn cdu (off + step * 4) r.d4
  wrIn cdu (off + step * 6) r.d6

/-- stb_image_write.h:1334-1337: the rows of the block that begins at `base`. -/
def dctRows (cdu : List Dbl) (base stride : Nat) : CM (List Dbl) := forN 8 cdu fun r cdu => dctAt cdu (base + r * stride) 1

/-- stb_image_write.h:1338-1342: its columns. -/
def dctCols (cdu : List Dbl) (base stride : Nat) : CM (List Dbl) := forN 8 cdu fun c cdu => dctAt cdu (base + c) stride

/-- stb_image_write.h:1348-1351: a coefficient is scaled and rounded. -/
def quantOne (c f : Dbl) : CM Int :=
  let v := fmul c f
  (if v.lt (.fin 0) then fsub v (flt (1 / 2)) else fadd v (flt (1 / 2))).toI32

/-- stb_image_write.h:1343-1353: the coefficients in zigzag order. -/
def quantDU (cdu : List Dbl) (base stride : Nat) (fdtbl : List Dbl) : CM (Cells Int) :=
  forN 64 (List.replicate 64 none) fun j du => do
    let c ← rdIn cdu (base + j / 8 * stride + j % 8)
    let f ← rdIn fdtbl j
    let q ← quantOne c f
    let z ← rdIn jpgZigZag j
    wr du z q

/-! ### Entropy coding -/

/-- stb_image_write.h:1319: `tmp1`. -/
def calcAbs (val : Int) : CM Int := if val < 0 then i32 (-val) else pure val

/-- stb_image_write.h:1320: `val` after the assignment. -/
def calcVal (val : Int) : CM Int := if val < 0 then i32 (val - 1) else pure val

/-- stb_image_write.h:1322-1324: the loop; `t` is `tmp1` and `bits[1]`. -/
def calcStep (t : Nat × Nat) : CM ((Nat × Nat) × Bool) :=
  if t.1 / 2 ≠ 0 then pure ((t.1 / 2, t.2 + 1), false) else pure ((t.1 / 2, t.2), true)

/-- stb_image_write.h:1318-1326 `stbiw__jpg_calcBits`: the two numbers stored in `bits`, of type `unsigned short`.  `val & (2^n - 1)` in
two's complement is the remainder. -/
def stbiw_jpg_calcBits (val : Int) : CM (Nat × Nat) := do
  let tmp ← calcAbs val
  let v ← calcVal val
  let t ← whileFuel 33 (tmp.toNat, 1) calcStep
  let m ← i32 (2 ^ t.2 : Nat)
  pure ((v % m).toNat % 65536, t.2 % 65536)

/-- stb_image_write.h:1355-1364: the DC coefficient. -/
def jpgDC (strict : Bool) (diff : Int) (HTDC : List (Nat × Nat)) (w : JpgW) : CM JpgW :=
  if diff = 0 then do
    let h ← rdIn HTDC 0
    stbiw_jpg_writeBits strict h w
  else do
    let bits ← stbiw_jpg_calcBits diff
    let h ← rdIn HTDC bits.2
    let w ← stbiw_jpg_writeBits strict h w
    stbiw_jpg_writeBits strict bits w

/-- stb_image_write.h:1366-1368: the position of the last coefficient that is not zero, at least 0. -/
def jpgLast (du : Cells Int) : CM Nat :=
  whileFuel 64 63 fun e =>
    if 0 < e then do
      let v ← rd du e
      if v = 0 then pure (e - 1, false) else pure (e, true)
    else pure (e, true)

/-- stb_image_write.h:1378-1379: skip zeros. -/
def jpgSkip (du : Cells Int) (last i : Nat) : CM Nat :=
  whileFuel 65 i fun i => do
    let v ← rd du i
    if v = 0 ∧ i ≤ last then pure (i + 1, false) else pure (i, true)

/-- stb_image_write.h:1374-1391: one coefficient with the zeros before it. -/
def jpgAC (strict : Bool) (du : Cells Int) (last : Nat) (HTAC : List (Nat × Nat)) (s : Nat × JpgW) : CM ((Nat × JpgW) × Bool) :=
  if s.1 ≤ last then do
    let i ← jpgSkip du last s.1
    let m ← rdIn HTAC 0xF0
    let w ← forN ((i - s.1) / 16) s.2 fun _ w => stbiw_jpg_writeBits strict m w
    let v ← rd du i
    let bits ← stbiw_jpg_calcBits v
    let h ← rdIn HTAC ((i - s.1) % 16 * 16 + bits.2)
    let w ← stbiw_jpg_writeBits strict h w
    let w ← stbiw_jpg_writeBits strict bits w
    pure ((i + 1, w), false)
  else pure (s, true)

/-- stb_image_write.h:1355-1395: a block of coefficients is written; the result is `DU[0]` with the state. -/
def jpgBlock (strict : Bool) (du : Cells Int) (dc : Int) (HTDC HTAC : List (Nat × Nat)) (w : JpgW) : CM (Int × JpgW) := do
  let eob ← rdIn HTAC 0
  let d ← rd du 0
  let diff ← i32 (d - dc)
  let w ← jpgDC strict diff HTDC w
  let last ← jpgLast du
  if last = 0 then do
    let w ← stbiw_jpg_writeBits strict eob w
    pure (d, w)
  else do
    let s ← whileFuel 64 (1, w) (jpgAC strict du last HTAC)
    let w ← if last ≠ 63 then stbiw_jpg_writeBits strict eob s.2 else pure s.2
    pure (d, w)

/-- stb_image_write.h:1328-1396 `stbiw__jpg_processDU`; `base` is where `CDU` points to.  The transform is done in place. -/
def stbiw_jpg_processDU (strict : Bool) (cdu : List Dbl) (base stride : Nat) (fdtbl : List Dbl) (dc : Int) (HTDC HTAC : List (Nat × Nat))
    (w : JpgW) : CM (List Dbl × Int × JpgW) := do
  let cdu ← dctRows cdu base stride
  let cdu ← dctCols cdu base stride
  let du ← quantDU cdu base stride fdtbl
  let r ← jpgBlock strict du dc HTDC HTAC w
  pure (cdu, r)

/-! ### The file -/

/-- stb_image_write.h:1467-1468 `aasf`. -/
def aasf : List Dbl :=
  ([1000000000, 1387039845, 1306562965, 1175875602, 1000000000, 785694958, 541196100, 275899379] : List ℚ).map fun q =>
    fmul (flt (q / 1000000000)) (flt (2828427125 / 1000000000))

/-- stb_image_write.h:1480-1481: the scale for a quality between 1 and 100. -/
def qualityScale (quality : Nat) : Nat := if quality < 50 then 5000 / quality else 200 - quality * 2

/-- stb_image_write.h:1483-1488: `YTable` or `UVTable`. -/
def quantTable (qt : List Nat) (scale : Nat) : CM (List UInt8) := do
  let t ← forN 64 (List.replicate 64 none) fun i t => do
    let q ← rdIn qt i
    let v := (q * scale + 50) / 100
    let z ← rdIn jpgZigZag i
    wr t z (u8 (if v < 1 then 1 else if 255 < v then 255 else v))
  asInput t

/-- stb_image_write.h:1490-1495: `fdtbl_Y` or `fdtbl_UV`. -/
def scaleTable (table : List UInt8) : CM (List Dbl) := do
  let t ← forN 64 (List.replicate 64 none) fun k t => do
    let z ← rdIn jpgZigZag k
    let q ← rdIn table z
    let r ← rdIn aasf (k / 8)
    let c ← rdIn aasf (k % 8)
    let f ← Dbl.div Fmt.b32 (.fin 1) (fmul (fmul (.fin q.toNat) r) c)
    wr t k f
  asInput t

/-- stb_image_write.h:1498-1520: everything before the coded blocks. -/
def jpgHead (width height : Nat) (yt uvt : List UInt8) : List UInt8 :=
  [0xFF, 0xD8, 0xFF, 0xE0, 0, 0x10, 74, 70, 73, 70, 0, 1, 1, 0, 0, 1, 0, 1, 0, 0, 0xFF, 0xDB, 0, 0x84, 0] ++ yt ++ [1] ++ uvt ++
  [0xFF, 0xC0, 0, 0x11, 8, u8 (height / 256), u8 height, u8 (width / 256), u8 width, 3, 1, 0x22, 0, 2, 0x11, 1, 3, 0x11, 1,
    0xFF, 0xC4, 0x01, 0xA2, 0] ++
  dcLumCodes.drop 1 ++ dcLumValues ++ [0x10] ++ acLumCodes.drop 1 ++ acLumValues ++ [1] ++ dcChromCodes.drop 1 ++ dcChromValues ++
  [0x11] ++ acChromCodes.drop 1 ++ acChromValues ++
  [0xFF, 0xDA, 0, 0xC, 3, 1, 0, 2, 0x11, 3, 0x11, 0, 0x3F, 0]

/-- The three planes of a macroblock. -/
structure Planes where
  y : Cells Dbl
  u : Cells Dbl
  v : Cells Dbl

/-- stb_image_write.h:1545: `Y[pos]`. -/
def jpgY (r g b : Dbl) : Dbl :=
  fsub (fadd (fadd (fmul (flt (29900 / 100000)) r) (fmul (flt (58700 / 100000)) g)) (fmul (flt (11400 / 100000)) b)) (.fin 128)

/-- stb_image_write.h:1546: `U[pos]`. -/
def jpgU (r g b : Dbl) : Dbl :=
  fadd (fsub (fmul (Dbl.neg (flt (16874 / 100000))) r) (fmul (flt (33126 / 100000)) g)) (fmul (flt (50000 / 100000)) b)

/-- stb_image_write.h:1547: `V[pos]`. -/
def jpgV (r g b : Dbl) : Dbl :=
  fsub (fsub (fmul (flt (50000 / 100000)) r) (fmul (flt (41869 / 100000)) g)) (fmul (flt (8131 / 100000)) b)

/-- stb_image_write.h:1538-1547: the pixel in row `row` and column `col`, or the nearest one in the image, goes to position `pos`. -/
def jpgPixel (data : List UInt8) (width height row col pos : Nat) (t : Planes) : CM Planes := do
  let a ← i32 ((if row < height then row else height - 1 : Nat) * (width : Int))
  let a ← i32 (a * 4)
  let b ← i32 ((if col < width then col else width - 1 : Nat) * 4)
  let p ← i32 (a + b)
  let r ← rdIn data p.toNat
  let g ← rdIn data (p.toNat + 1)
  let b ← rdIn data (p.toNat + 2)
  let r := Dbl.fin r.toNat
  let g := Dbl.fin g.toNat
  let b := Dbl.fin b.toNat
  let y ← wr t.y pos (jpgY r g b)
  let u ← wr t.u pos (jpgU r g b)
  let v ← wr t.v pos (jpgV r g b)
  pure ⟨y, u, v⟩

/-- stb_image_write.h:1536-1549: the macroblock whose corner is in row `y` and column `x`. -/
def jpgGather (data : List UInt8) (width height y x : Nat) : CM Planes := do
  let _ ← i32 (y + 16 : Nat)
  let _ ← i32 (x + 16 : Nat)
  forN 256 ⟨List.replicate 256 none, List.replicate 256 none, List.replicate 256 none⟩ fun pos t =>
    jpgPixel data width height (y + pos / 16) (x + pos % 16) pos t

/-- stb_image_write.h:1562-1563: one value of `subU` or `subV`. -/
def jpgMean (u : List Dbl) (j : Nat) : CM Dbl := do
  let a ← rdIn u j
  let b ← rdIn u (j + 1)
  let c ← rdIn u (j + 16)
  let d ← rdIn u (j + 17)
  pure (fmul (fadd (fadd (fadd a b) c) d) (flt (1 / 4)))

/-- stb_image_write.h:1557-1565: `subU` or `subV`. -/
def jpgSub (u : List Dbl) : CM (List Dbl) := do
  let t ← forN 64 (List.replicate 64 none) fun pos t => do
    let m ← jpgMean u (pos / 8 * 32 + pos % 8 * 2)
    wr t pos m
  asInput t

/-- `DCY`, `DCU`, `DCV` and the bits. -/
structure JpgS where
  dcy : Int
  dcu : Int
  dcv : Int
  w : JpgW

/-- stb_image_write.h:1550-1553: one of the four blocks of luminance. -/
def jpgLum (strict : Bool) (fy : List Dbl) (base : Nat) (t : List Dbl × Int × JpgW) : CM (List Dbl × Int × JpgW) :=
  stbiw_jpg_processDU strict t.1 base 16 fy t.2.1 YDC_HT YAC_HT t.2.2

/-- stb_image_write.h:1535-1569: one macroblock. -/
def jpgMCU (strict : Bool) (data : List UInt8) (width height : Nat) (fy fuv : List Dbl) (y x : Nat) (s : JpgS) : CM JpgS := do
  let t ← jpgGather data width height y x
  let py ← asInput t.y
  let pu ← asInput t.u
  let pv ← asInput t.v
  let r ← jpgLum strict fy 0 (py, s.dcy, s.w)
  let r ← jpgLum strict fy 8 r
  let r ← jpgLum strict fy 128 r
  let r ← jpgLum strict fy 136 r
  let su ← jpgSub pu
  let sv ← jpgSub pv
  let ru ← stbiw_jpg_processDU strict su 0 8 fuv s.dcu UVDC_HT UVAC_HT r.2.2
  let rv ← stbiw_jpg_processDU strict sv 0 8 fuv s.dcv UVDC_HT UVAC_HT ru.2.2
  pure ⟨r.2.1, ru.2.1, rv.2.1, rv.2.2⟩

/-- stb_image_write.h:1398-1603 `stbi_write_jpg_core` for four bytes per pixel and quality 90: the bytes written, or nothing if it
returns 0. -/
def stbi_write_jpg_core (strict : Bool) (width height : Nat) (data : List UInt8) : CM (Option (List UInt8)) :=
  if width = 0 ∨ height = 0 then pure none
  else do
    let yt ← quantTable YQT (qualityScale 90)
    let uvt ← quantTable UVQT (qualityScale 90)
    let fy ← scaleTable yt
    let fuv ← scaleTable uvt
    let s ← forN ((height + 15) / 16) ⟨0, 0, 0, ⟨jpgHead width height yt uvt, 0, 0⟩⟩ fun i s =>
      forN ((width + 15) / 16) s fun j s => jpgMCU strict data width height fy fuv (i * 16) (j * 16) s
    let w ← stbiw_jpg_writeBits strict (0x7F, 7) s.w
    pure (some (w.out ++ [0xFF, 0xD9]))

/-- stb_image_write.h:1616-1626 `stbi_write_jpg`: the returned number and, if the file could be opened, its contents. -/
def stbi_write_jpg (strict opens : Bool) (width height : Nat) (data : List UInt8) : CM (Nat × Option (List UInt8)) :=
  if opens then do
    let r ← stbi_write_jpg_core strict width height data
    pure (match r with
      | none => (0, some [])
      | some l => (1, some l))
  else pure (0, none)

end FlatCV.Model
