/-
Model of the PNG writer of `include/stb_image_write.h`.

The writer is used with its default settings: compression level 8, no forced filter, no vertical flip (lines 251-260).
Simplifications: growing a buffer with `realloc` succeeds, so only the first allocation of the compressed data is in the heap
(its failure ends the program by an assertion); the lists of the hash table, which are all released again (lines 980-981), are not.
The table itself is a function from hash values below 16384, its initial value being NULL everywhere.
-/
import Verif.Core.Mem
import Verif.Model.Foerstner

namespace FlatCV.Model

/-! ### Stretchy buffers -/

/-- stb_image_write.h:813-837: a growing array of bytes with its capacity; the capacity is 0 for NULL. -/
structure Sb where
  cells : List UInt8
  cap : Nat

/-- stb_image_write.h:817-837 `stbiw__sbpush`, `stbiw__sbgrowf` for bytes. -/
def Sb.push (s : Sb) (v : UInt8) : CM Sb :=
  if s.cap = 0 then .ok ⟨s.cells ++ [v], 2⟩
  else if s.cells.length + 1 ≥ s.cap then do
    let m ← i32 (2 * s.cap)
    let m ← i32 (m + 1)
    pure ⟨s.cells ++ [v], m.toNat⟩
  else .ok ⟨s.cells ++ [v], s.cap⟩

/-! ### Bits -/

/-- The output so far and the bits not yet written (stb_image_write.h:906-908). -/
structure BitW where
  out : Sb
  bitbuf : Nat
  bitcount : Nat

/-- stb_image_write.h:839-847. -/
def stbiw_zlib_flushf (w : BitW) : CM BitW :=
  whileFuel (w.bitcount + 1) w fun w => do
    if w.bitcount ≥ 8 then do
      let out ← w.out.push (u8 w.bitbuf)
      pure (⟨out, w.bitbuf / 256, w.bitcount - 8⟩, false)
    else pure (w, true)

/-- stb_image_write.h:849-857; `code` is not negative. -/
def stbiw_zlib_bitrev (code : Nat) : Nat → Nat → Nat
  | 0, res => res
  | codebits + 1, res => stbiw_zlib_bitrev (code / 2) codebits (2 * res + code % 2)

/-- stb_image_write.h:880-881 `stbiw__zlib_add`.  The shift is one of `int`. -/
def stbiw_zlib_add (code codebits : Nat) (w : BitW) : CM BitW := do
  let c ← i32 (code * 2 ^ w.bitcount : Nat)
  stbiw_zlib_flushf ⟨w.out, w.bitbuf ||| c.toNat, w.bitcount + codebits⟩

/-- stb_image_write.h:882 `stbiw__zlib_huffa`. -/
def stbiw_zlib_huffa (b c : Nat) (w : BitW) : CM BitW := stbiw_zlib_add (stbiw_zlib_bitrev b c 0) c w

/-- stb_image_write.h:884-889 `stbiw__zlib_huff` and, for bytes, `stbiw__zlib_huffb`. -/
def stbiw_zlib_huff (n : Nat) (w : BitW) : CM BitW :=
  if n ≤ 143 then stbiw_zlib_huffa (0x30 + n) 8 w
  else if n ≤ 255 then stbiw_zlib_huffa (0x190 + n - 144) 9 w
  else if n ≤ 279 then stbiw_zlib_huffa (n - 256) 7 w
  else stbiw_zlib_huffa (0xc0 + n - 280) 8 w

/-! ### Searching for repetitions -/

/-- stb_image_write.h:859-865: how many bytes at `a` and `b` agree. -/
def stbiw_zlib_countm (data : List UInt8) (a b limit : Nat) : CM Nat :=
  forBreak (min limit 258) 0 0 fun i _ => do
    let p ← rdIn data (a + i)
    let q ← rdIn data (b + i)
    if p = q then pure (i + 1, false) else pure (i, true)

/-- stb_image_write.h:867-877. -/
def stbiw_zhash (data : List UInt8) (i : Nat) : CM Nat := do
  let a ← rdIn data i
  let b ← rdIn data (i + 1)
  let c ← rdIn data (i + 2)
  let h := a.toNat + b.toNat * 256 + c.toNat * 65536
  let h := h ^^^ u32 (h * 8)
  let h := u32 (h + h / 32)
  let h := h ^^^ u32 (h * 16)
  let h := u32 (h + h / 131072)
  let h := h ^^^ u32 (h * 33554432)
  let h := u32 (h + h / 64)
  pure h

/-- stb_image_write.h:927-933: the best earlier occurrence of the bytes at `i`. -/
def searchMatch (data : List UInt8) (i : Nat) : List Nat → Nat × Option Nat → CM (Nat × Option Nat)
  | [], st => .ok st
  | p :: l, st =>
    if (p : Int) > i - 32768 then do
      let d ← stbiw_zlib_countm data p i (data.length - i)
      searchMatch data i l (if d ≥ st.1 then (d, some p) else st)
    else searchMatch data i l st

/-- stb_image_write.h:944-953: whether the bytes at `i + 1` have a longer earlier occurrence. -/
def searchBetter (data : List UInt8) (i best : Nat) : List Nat → CM Bool
  | [] => .ok false
  | p :: l =>
    if (p : Int) > i - 32767 then do
      let e ← stbiw_zlib_countm data p (i + 1) (data.length - i - 1)
      if e > best then pure true else searchBetter data i best l
    else searchBetter data i best l

/-- stb_image_write.h:901. -/
def lengthc : List Nat := [3, 4, 5, 6, 7, 8, 9, 10, 11, 13, 15, 17, 19, 23, 27, 31, 35, 43, 51, 59, 67, 83, 99, 115, 131, 163, 195, 227, 258, 259]

/-- stb_image_write.h:902. -/
def lengtheb : List Nat := [0, 0, 0, 0, 0, 0, 0, 0, 1, 1, 1, 1, 2, 2, 2, 2, 3, 3, 3, 3, 4, 4, 4, 4, 5, 5, 5, 5, 0]

/-- stb_image_write.h:903. -/
def distc : List Nat := [1, 2, 3, 4, 5, 7, 9, 13, 17, 25, 33, 49, 65, 97, 129, 193, 257, 385, 513, 769, 1025, 1537, 2049, 3073, 4097, 6145,
  8193, 12289, 16385, 24577, 32768]

/-- stb_image_write.h:904. -/
def disteb : List Nat := [0, 0, 0, 0, 1, 1, 2, 2, 3, 3, 4, 4, 5, 5, 6, 6, 7, 7, 8, 8, 9, 9, 10, 10, 11, 11, 12, 12, 13, 13]

/-- stb_image_write.h:960, 963: `for (j=0; v > table[j+1]-1; ++j);`. -/
def findCode (table : List Nat) (v : Nat) : CM Nat :=
  whileFuel (table.length + 1) 0 fun j => do
    let t ← rdIn table (j + 1)
    if (v : Int) > t - 1 then pure (j + 1, false) else pure (j, true)

/-- stb_image_write.h:962, 965: extra bits. -/
def addExtra (table ebs : List Nat) (v j : Nat) (w : BitW) : CM BitW := do
  let eb ← rdIn ebs j
  if eb ≠ 0 then do
    let c ← rdIn table j
    stbiw_zlib_add (v - c) eb w
  else pure w

/-- stb_image_write.h:957-965: a repetition of `best` bytes, `d` bytes back. -/
def writeMatch (best d : Nat) (w : BitW) : CM BitW :=
  if d ≤ 32767 ∧ best ≤ 258 then do
    let j ← findCode lengthc best
    let w ← stbiw_zlib_huff (j + 257) w
    let w ← addExtra lengthc lengtheb best j w
    let j ← findCode distc d
    let w ← stbiw_zlib_add (stbiw_zlib_bitrev j 5 0) 5 w
    addExtra distc disteb d j w
  else .error .exit

/-- The state of the loop in lines 922-971: position, hash table, output. -/
structure Deflate where
  i : Nat
  table : Nat → List Nat
  w : BitW

/-- stb_image_write.h:934-939: the position is added to its list, which is shortened when it is long. -/
def tablePush (quality h i : Nat) (table : Nat → List Nat) : Nat → List Nat := fun k =>
  if k = h then (if (table h).length = 2 * quality then (table h).drop quality else table h) ++ [i] else table k

/-- stb_image_write.h:941-955: the repetition is given up if there is a longer one at the next byte. -/
def lazyMatch (data : List UInt8) (i best : Nat) (table : Nat → List Nat) : Option Nat → CM (Option Nat)
  | none => .ok none
  | some p => do
    let h ← stbiw_zhash data (i + 1)
    let better ← searchBetter data i best (table (h % 16384))
    pure (if better then none else some p)

/-- stb_image_write.h:922-971: one round. -/
def deflateStep (data : List UInt8) (quality : Nat) (s : Deflate) : CM Deflate := do
  let h ← stbiw_zhash data s.i
  let h := h % 16384
  let (best, loc) ← searchMatch data s.i (s.table h) (3, none)
  let table := tablePush quality h s.i s.table
  let loc ← lazyMatch data s.i best table loc
  match loc with
  | some p => do
    let w ← writeMatch best (s.i - p) s.w
    pure ⟨s.i + best, table, w⟩
  | none => do
    let v ← rdIn data s.i
    let w ← stbiw_zlib_huff v.toNat s.w
    pure ⟨s.i + 1, table, w⟩

/-- stb_image_write.h:905-978: the compressed data, not yet with a checksum. -/
def deflateFixed (data : List UInt8) (quality : Nat) : CM Sb := do
  let quality := if quality < 5 then 5 else quality
  let out ← Sb.push ⟨[], 0⟩ 0x78
  let out ← out.push 0x5e
  let w ← stbiw_zlib_add 1 1 ⟨out, 0, 0⟩
  let w ← stbiw_zlib_add 1 2 w
  let s ← whileFuel (data.length + 1) (⟨0, fun _ => [], w⟩ : Deflate) fun s => do
    if (s.i : Int) < data.length - 3 then do
      let s ← deflateStep data quality s
      pure (s, false)
    else pure (s, true)
  let w ← forFrom s.i data.length s.w fun i w => do
    let v ← rdIn data i
    stbiw_zlib_huff v.toNat w
  let w ← stbiw_zlib_huff 256 w
  let w ← whileFuel (w.bitcount + 8) w fun w => do
    if w.bitcount ≠ 0 then do
      let w ← stbiw_zlib_add 0 1 w
      pure (w, false)
    else pure (w, true)
  pure w.out

/-- stb_image_write.h:988-998: one stored block.  `memcpy` writes into the capacity of the buffer. -/
def storeBlock (data : List UInt8) (j : Nat) (out : Sb) : CM (Nat × Sb) := do
  let len := if data.length - j > 32767 then 32767 else data.length - j
  let out ← out.push (if data.length - j = len then 1 else 0)
  let out ← out.push (u8 len)
  let out ← out.push (u8 (len / 256))
  let out ← out.push (u8OfInt (-1 - (len : Int)))
  let out ← out.push (u8OfInt ((-1 - (len : Int)) / 256))
  if out.cells.length + len ≤ out.cap then pure (j + len, ⟨out.cells ++ (data.drop j).take len, out.cap⟩)
  else .error .oobWrite

/-- stb_image_write.h:984-1000: stored blocks, if that is shorter. -/
def storeIfShorter (data : List UInt8) (out : Sb) : CM Sb := do
  let a ← i32 ((data.length : Int) + 32766)
  let b ← i32 (a / 32767 * 5)
  let c ← i32 ((data.length : Int) + 2)
  let c ← i32 (c + b)
  if (out.cells.length : Int) > c then do
    let s ← whileFuel (data.length + 1) ((0, ⟨out.cells.take 2, out.cap⟩) : Nat × Sb) fun s => do
      if s.1 < data.length then do
        let s ← storeBlock data s.1 s.2
        pure (s, false)
      else pure (s, true)
    pure s.2
  else pure out

/-- stb_image_write.h:1002-1012: the sums of Adler-32, `s1` and `s2`. -/
def adlerModel (data : List UInt8) : CM (Nat × Nat) := do
  let s ← whileFuel (data.length + 2) ((0, data.length % 5552, 1, 0) : Nat × Nat × Nat × Nat) fun (j, blocklen, s1, s2) => do
    if j < data.length then do
      let (s1, s2) ← forN blocklen (s1, s2) fun i (s1, s2) => do
        let v ← rdIn data (j + i)
        let s1 := u32 (s1 + v.toNat)
        pure (s1, u32 (s2 + s1))
      pure ((j + blocklen, 5552, s1 % 65521, s2 % 65521), false)
    else pure ((j, blocklen, s1, s2), true)
  pure (s.2.2.1, s.2.2.2)

/-- stb_image_write.h:895-1022 `stbi_zlib_compress`, the computation. -/
def zlibBytes (data : List UInt8) (quality : Nat) : CM (List UInt8) := do
  let out ← deflateFixed data quality
  let out ← storeIfShorter data out
  let (s1, s2) ← adlerModel data
  let out ← out.push (u8 (s2 / 256))
  let out ← out.push (u8 s2)
  let out ← out.push (u8 (s1 / 256))
  let out ← out.push (u8 s1)
  pure out.cells

/-- stb_image_write.h:913-1022: the steps after the buffer for the result has been allocated, which an assertion checks. -/
def zlibFinish (src table : Nat) (data : List UInt8) (quality : Nat) : Option (Buf UInt8) → HM (Option (Buf UInt8))
  | none => hfault .exit
  | some out => do
    let z ← use [src, table, out.id] (zlibBytes data quality)
    free table
    pure (some ⟨out.id, z.map some⟩)

/-- stb_image_write.h:911-1022: the steps after the hash table has been allocated. -/
def zlibStart (src : Nat) (data : List UInt8) (quality : Nat) : Option (Buf UInt8) → HM (Option (Buf UInt8))
  | none => pure none
  | some table => do
    let out ← malloc UInt8 10
    zlibFinish src table.id data quality out

/-- stb_image_write.h:895-1022 `stbi_zlib_compress` of the contents of the block `src`. -/
def stbi_zlib_compress (src : Nat) (data : List UInt8) (quality : Nat) : HM (Option (Buf UInt8)) := do
  let table ← malloc UInt8 16384
  zlibStart src data quality table

/-! ### PNG -/

/-- stb_image_write.h:1029-1063. -/
def crc_table : List Nat :=
  [0x00000000, 0x77073096, 0xEE0E612C, 0x990951BA, 0x076DC419, 0x706AF48F, 0xE963A535, 0x9E6495A3,
   0x0EDB8832, 0x79DCB8A4, 0xE0D5E91E, 0x97D2D988, 0x09B64C2B, 0x7EB17CBD, 0xE7B82D07, 0x90BF1D91,
   0x1DB71064, 0x6AB020F2, 0xF3B97148, 0x84BE41DE, 0x1ADAD47D, 0x6DDDE4EB, 0xF4D4B551, 0x83D385C7,
   0x136C9856, 0x646BA8C0, 0xFD62F97A, 0x8A65C9EC, 0x14015C4F, 0x63066CD9, 0xFA0F3D63, 0x8D080DF5,
   0x3B6E20C8, 0x4C69105E, 0xD56041E4, 0xA2677172, 0x3C03E4D1, 0x4B04D447, 0xD20D85FD, 0xA50AB56B,
   0x35B5A8FA, 0x42B2986C, 0xDBBBC9D6, 0xACBCF940, 0x32D86CE3, 0x45DF5C75, 0xDCD60DCF, 0xABD13D59,
   0x26D930AC, 0x51DE003A, 0xC8D75180, 0xBFD06116, 0x21B4F4B5, 0x56B3C423, 0xCFBA9599, 0xB8BDA50F,
   0x2802B89E, 0x5F058808, 0xC60CD9B2, 0xB10BE924, 0x2F6F7C87, 0x58684C11, 0xC1611DAB, 0xB6662D3D,
   0x76DC4190, 0x01DB7106, 0x98D220BC, 0xEFD5102A, 0x71B18589, 0x06B6B51F, 0x9FBFE4A5, 0xE8B8D433,
   0x7807C9A2, 0x0F00F934, 0x9609A88E, 0xE10E9818, 0x7F6A0DBB, 0x086D3D2D, 0x91646C97, 0xE6635C01,
   0x6B6B51F4, 0x1C6C6162, 0x856530D8, 0xF262004E, 0x6C0695ED, 0x1B01A57B, 0x8208F4C1, 0xF50FC457,
   0x65B0D9C6, 0x12B7E950, 0x8BBEB8EA, 0xFCB9887C, 0x62DD1DDF, 0x15DA2D49, 0x8CD37CF3, 0xFBD44C65,
   0x4DB26158, 0x3AB551CE, 0xA3BC0074, 0xD4BB30E2, 0x4ADFA541, 0x3DD895D7, 0xA4D1C46D, 0xD3D6F4FB,
   0x4369E96A, 0x346ED9FC, 0xAD678846, 0xDA60B8D0, 0x44042D73, 0x33031DE5, 0xAA0A4C5F, 0xDD0D7CC9,
   0x5005713C, 0x270241AA, 0xBE0B1010, 0xC90C2086, 0x5768B525, 0x206F85B3, 0xB966D409, 0xCE61E49F,
   0x5EDEF90E, 0x29D9C998, 0xB0D09822, 0xC7D7A8B4, 0x59B33D17, 0x2EB40D81, 0xB7BD5C3B, 0xC0BA6CAD,
   0xEDB88320, 0x9ABFB3B6, 0x03B6E20C, 0x74B1D29A, 0xEAD54739, 0x9DD277AF, 0x04DB2615, 0x73DC1683,
   0xE3630B12, 0x94643B84, 0x0D6D6A3E, 0x7A6A5AA8, 0xE40ECF0B, 0x9309FF9D, 0x0A00AE27, 0x7D079EB1,
   0xF00F9344, 0x8708A3D2, 0x1E01F268, 0x6906C2FE, 0xF762575D, 0x806567CB, 0x196C3671, 0x6E6B06E7,
   0xFED41B76, 0x89D32BE0, 0x10DA7A5A, 0x67DD4ACC, 0xF9B9DF6F, 0x8EBEEFF9, 0x17B7BE43, 0x60B08ED5,
   0xD6D6A3E8, 0xA1D1937E, 0x38D8C2C4, 0x4FDFF252, 0xD1BB67F1, 0xA6BC5767, 0x3FB506DD, 0x48B2364B,
   0xD80D2BDA, 0xAF0A1B4C, 0x36034AF6, 0x41047A60, 0xDF60EFC3, 0xA867DF55, 0x316E8EEF, 0x4669BE79,
   0xCB61B38C, 0xBC66831A, 0x256FD2A0, 0x5268E236, 0xCC0C7795, 0xBB0B4703, 0x220216B9, 0x5505262F,
   0xC5BA3BBE, 0xB2BD0B28, 0x2BB45A92, 0x5CB36A04, 0xC2D7FFA7, 0xB5D0CF31, 0x2CD99E8B, 0x5BDEAE1D,
   0x9B64C2B0, 0xEC63F226, 0x756AA39C, 0x026D930A, 0x9C0906A9, 0xEB0E363F, 0x72076785, 0x05005713,
   0x95BF4A82, 0xE2B87A14, 0x7BB12BAE, 0x0CB61B38, 0x92D28E9B, 0xE5D5BE0D, 0x7CDCEFB7, 0x0BDBDF21,
   0x86D3D2D4, 0xF1D4E242, 0x68DDB3F8, 0x1FDA836E, 0x81BE16CD, 0xF6B9265B, 0x6FB077E1, 0x18B74777,
   0x88085AE6, 0xFF0F6A70, 0x66063BCA, 0x11010B5C, 0x8F659EFF, 0xF862AE69, 0x616BFFD3, 0x166CCF45,
   0xA00AE278, 0xD70DD2EE, 0x4E048354, 0x3903B3C2, 0xA7672661, 0xD06016F7, 0x4969474D, 0x3E6E77DB,
   0xAED16A4A, 0xD9D65ADC, 0x40DF0B66, 0x37D83BF0, 0xA9BCAE53, 0xDEBB9EC5, 0x47B2CF7F, 0x30B5FFE9,
   0xBDBDF21C, 0xCABAC28A, 0x53B39330, 0x24B4A3A6, 0xBAD03605, 0xCDD70693, 0x54DE5729, 0x23D967BF,
   0xB3667A2E, 0xC4614AB8, 0x5D681B02, 0x2A6F2B94, 0xB40BBE37, 0xC30C8EA1, 0x5A05DF1B, 0x2D02EF8D]

/-- stb_image_write.h:1024-1071 `stbiw__crc32`. -/
def stbiw_crc32 (l : List UInt8) : CM Nat := do
  let crc ← forN l.length 0xFFFFFFFF fun i crc => do
    let b ← rdIn l i
    let t ← rdIn crc_table (b.toNat ^^^ (crc % 256))
    pure ((crc / 256) ^^^ t)
  pure (crc ^^^ 0xFFFFFFFF)

/-- stb_image_write.h:1073-1074 `stbiw__wp32`. -/
def stbiw_wp32 (v : Nat) : List UInt8 := [u8 (v / 16777216), u8 (v / 65536), u8 (v / 256), u8 v]

/-- stb_image_write.h:1083-1089. -/
def stbiw_paeth (a b c : Int) : Int :=
  let p := a + b - c
  let pa := |p - a|
  let pb := |p - b|
  let pc := |p - c|
  if pa ≤ pb ∧ pa ≤ pc then a else if pb ≤ pc then b else c

/-- stb_image_write.h:1107-1117: the byte `i < n` of a filtered line.  `z` is the offset of the line. -/
def lineFirst (pixels : List UInt8) (z : Int) (stride type i : Nat) : CM UInt8 := do
  let v ← rdInZ pixels (z + i)
  match type with
  | 2 => do
    let b ← rdInZ pixels (z + (i - stride : Int))
    pure (u8OfInt (v.toNat - b.toNat))
  | 3 => do
    let b ← rdInZ pixels (z + (i - stride : Int))
    pure (u8OfInt (v.toNat - (b.toNat / 2 : Nat)))
  | 4 => do
    let b ← rdInZ pixels (z + (i - stride : Int))
    pure (u8OfInt (v.toNat - stbiw_paeth 0 b.toNat 0))
  | _ => pure v

/-- stb_image_write.h:1118-1125: the byte `i ≥ n` of a filtered line. -/
def lineNext (pixels : List UInt8) (z : Int) (stride n type i : Nat) : CM UInt8 := do
  let v ← rdInZ pixels (z + i)
  match type with
  | 1 => do
    let a ← rdInZ pixels (z + (i - n : Int))
    pure (u8OfInt (v.toNat - a.toNat))
  | 2 => do
    let b ← rdInZ pixels (z + (i - stride : Int))
    pure (u8OfInt (v.toNat - b.toNat))
  | 3 => do
    let a ← rdInZ pixels (z + (i - n : Int))
    let b ← rdInZ pixels (z + (i - stride : Int))
    pure (u8OfInt (v.toNat - ((a.toNat + b.toNat) / 2 : Nat)))
  | 4 => do
    let a ← rdInZ pixels (z + (i - n : Int))
    let b ← rdInZ pixels (z + (i - stride : Int))
    let c ← rdInZ pixels (z + (i - stride - n : Int))
    pure (u8OfInt (v.toNat - stbiw_paeth a.toNat b.toNat c.toNat))
  | 5 => do
    let a ← rdInZ pixels (z + (i - n : Int))
    pure (u8OfInt (v.toNat - (a.toNat / 2 : Nat)))
  | 6 => do
    let a ← rdInZ pixels (z + (i - n : Int))
    pure (u8OfInt (v.toNat - stbiw_paeth a.toNat 0 0))
  | _ => pure v

/-- stb_image_write.h:1092-1126, without flipping.  `wn` is `width*n`. -/
def stbiw_encode_png_line (pixels : List UInt8) (stride wn y n filter : Nat) (line : Cells UInt8) : CM (Cells UInt8) := do
  let type ← rdIn (if y ≠ 0 then [0, 1, 2, 3, 4] else [0, 1, 0, 5, 6]) filter
  let z ← i32 ((stride : Int) * y)
  if type = 0 then memcpyIn line 0 pixels z.toNat wn
  else do
    let line ← forN n line fun i line => do
      let v ← lineFirst pixels z stride type i
      wr line i v
    forFrom n wn line fun i line => do
      let v ← lineNext pixels z stride n type i
      wr line i v

/-- stb_image_write.h:1156-1160: the sum of the absolute values of a line of `signed char`. -/
def estimate (wn : Nat) (line : Cells UInt8) : CM Int :=
  forN wn 0 fun i est => do
    let v ← rd line i
    i32 (est + (if v.toNat < 128 then v.toNat else 256 - v.toNat : Nat))

/-- stb_image_write.h:1146-1175: one line.  After the five trials the best filter is applied once more, as `filter_type` is 5 then. -/
def filterLine (pixels : List UInt8) (stride wn n j : Nat) (filt line : Cells UInt8) : CM (Cells UInt8 × Cells UInt8) := do
  let (line, best, _) ← forN 5 ((line, 0, 2147483647) : Cells UInt8 × Nat × Int) fun f (line, best, val) => do
    let line ← stbiw_encode_png_line pixels stride wn j n f line
    let est ← estimate wn line
    pure (if est < val then (line, f, est) else (line, best, val))
  let line ← stbiw_encode_png_line pixels stride wn j n best line
  let o ← i32 ((j : Int) * (wn + 1))
  let filt ← wr filt o.toNat (u8 best)
  let row ← asInput line
  let filt ← memcpyIn filt (o.toNat + 1) row 0 wn
  pure (filt, line)

/-- stb_image_write.h:1185-1210: signature and chunks; the compressed data is released when it has been copied. -/
def writeChunks (x y n : Nat) (zlib : Nat) (z : List UInt8) : Option (Buf UInt8) → HM (Option (Buf UInt8))
  | none => pure none
  | some out => do
    let colour ← use [] (rdIn [255, 0, 4, 2, 6] n)
    let hdr := [73, 72, 68, 82] ++ stbiw_wp32 x ++ stbiw_wp32 y ++ [8, colour, 0, 0, 0]
    let hcrc ← use [out.id] (stbiw_crc32 hdr)
    let dat ← use [out.id, zlib] (.ok ([73, 68, 65, 84] ++ z))
    free zlib
    let dcrc ← use [out.id] (stbiw_crc32 dat)
    let ecrc ← use [out.id] (stbiw_crc32 [73, 69, 78, 68])
    let bytes := [137, 80, 78, 71, 13, 10, 26, 10] ++ stbiw_wp32 13 ++ hdr ++ stbiw_wp32 hcrc ++
      stbiw_wp32 z.length ++ dat ++ stbiw_wp32 dcrc ++ stbiw_wp32 0 ++ [73, 69, 78, 68] ++ stbiw_wp32 ecrc
    if bytes.length = out.cells.length then pure (some { out with cells := bytes.map some }) else hfault .exit

/-- stb_image_write.h:1178-1212: the file around the compressed data. -/
def pngOut (x y n : Nat) : Option (Buf UInt8) → HM (Option (Buf UInt8))
  | none => pure none
  | some zlib => do
    let z ← use [zlib.id] (asInput zlib.cells)
    let size ← use [] (i32 (57 + (z.length : Int)))
    let out ← malloc UInt8 size.toNat
    writeChunks x y n zlib.id z out

/-- stb_image_write.h:1145-1212: the rows are filtered and compressed. -/
def pngLines (pixels : List UInt8) (stride wn x y n : Nat) (filt : Buf UInt8) : Option (Buf UInt8) → HM (Option (Buf UInt8))
  | none => do
    free filt.id
    pure none
  | some line => do
    let s ← use [filt.id, line.id] (forN y (filt.cells, line.cells) fun j s => filterLine pixels stride wn n j s.1 s.2)
    free line.id
    let raw ← use [filt.id] (asInput s.1)
    let zlib ← stbi_zlib_compress filt.id raw 8
    free filt.id
    pngOut x y n zlib

/-- stb_image_write.h:1145-1212: the steps after the first allocation. -/
def pngFilt (pixels : List UInt8) (stride wn x y n : Nat) : Option (Buf UInt8) → HM (Option (Buf UInt8))
  | none => pure none
  | some filt => do
    let line ← malloc UInt8 wn
    pngLines pixels stride wn x y n filt line

/-- stb_image_write.h:1128-1212 `stbi_write_png_to_mem`; the length of the result is stored in `*out_len`. -/
def stbi_write_png_to_mem (pixels : List UInt8) (stride x y n : Nat) : HM (Option (Buf UInt8)) := do
  let wn ← use [] (i32 ((x : Int) * n))
  let row ← use [] (i32 (wn + 1))
  let total ← use [] (i32 (row * y))
  let filt ← malloc UInt8 total.toNat
  pngFilt pixels (if stride = 0 then wn.toNat else stride) wn.toNat x y n filt

/-- stb_image_write.h:1219-1228: the file is written if it can be opened. -/
def writeFile (opens : Bool) : Option (Buf UInt8) → HM (Nat × Option (List UInt8))
  | none => pure (0, none)
  | some png =>
    if opens then do
      let l ← use [png.id] (asInput png.cells)
      free png.id
      pure (1, some l)
    else do
      free png.id
      pure (0, none)

/-- stb_image_write.h:1215-1228 `stbi_write_png`: the returned number and, if the file could be opened, its contents. -/
def stbi_write_png (opens : Bool) (x y comp : Nat) (data : List UInt8) (stride : Nat) : HM (Nat × Option (List UInt8)) := do
  let png ← stbi_write_png_to_mem data stride x y comp
  writeFile opens png

end FlatCV.Model
