/-
Model of the JPEG decoder in `include/stb_image.h` for sequential files, as called by the command line tool: `stbi_load(path, &w, &h, &n, 4)`
(src/cli.c:1546).

Simplifications: what is done after the header of a progressive frame is a parameter.  The arithmetic kernels are the scalar ones
(Model/JpegKernel.lean).  Blocks are not released here.  Whether an allocation succeeds is given by a table.  The planes of the components
are exactly as long as they are used (the 15 bytes for the alignment are left out).  `feof` is an arbitrary function of the state of the
context.  `stbi__err` only returns 0; a function that returns 0 yields `none`.
-/
import Verif.Model.PngLoad
import Verif.Model.JpegKernel

namespace FlatCV.Model

/-- Which allocations succeed: the two decoder states, the plane and the line buffer of each component, the image. -/
structure JpegMem where
  test : Bool
  state : Bool
  plane : Nat → Bool
  line : Nat → Bool
  out : Bool

/-! ### Huffman tables -/

/-- stb_image.h:1938-1947 `stbi__huffman`. -/
structure JHuff where
  fast : List Nat
  code : List Nat
  values : List Nat
  size : List Nat
  maxcode : List Nat
  delta : List Int
deriving DecidableEq

/-- A table after `memset(j, 0, sizeof(stbi__jpeg))`. -/
def JHuff.zero : JHuff :=
  ⟨List.replicate 512 0, List.replicate 256 0, List.replicate 256 0, List.replicate 257 0, List.replicate 18 0, List.replicate 17 0⟩

/-- stb_image.h:2004-2010: the size list; `none` if it is too long. -/
def huffSizes (size : List Nat) (count : List Nat) : CM (Option (List Nat × Nat)) := do
  let r ← forN 16 (some (size, 0)) fun i st => do
    let n ← rdIn count i
    forN n st fun _ st => match st with
      | none => pure none
      | some (size, k) => do
        let size ← wrIn size k (i + 1)
        pure (if 257 ≤ k + 1 then none else some (size, k + 1))
  match r with
  | none => pure none
  | some (size, k) => do
    let size ← wrIn size k 0
    pure (some (size, k))

/-- stb_image.h:2013-2030: the variables of the loop over the lengths. -/
structure HuffGen where
  code : Nat
  k : Nat
  codes : List Nat
  maxcode : List Nat
  delta : List Int
  ok : Bool

/-- stb_image.h:2018-2019: the words of length `j`. -/
def huffRun (size : List Nat) (j : Nat) (g : HuffGen) : CM HuffGen :=
  whileFuel 258 g fun g => do
    let s ← rdIn size g.k
    if s = j then do
      let codes ← wrIn g.codes g.k (g.code % 65536)
      pure ({ g with codes := codes, k := g.k + 1, code := g.code + 1 }, false)
    else pure (g, true)

/-- stb_image.h:2019-2024: all words of length `j`. -/
def huffLen (size : List Nat) (j : Nat) (g : HuffGen) : CM HuffGen := do
  let s ← rdIn size g.k
  if s = j then do
    let g ← huffRun size j g
    pure { g with ok := decide (g.code - 1 < 2 ^ j) }
  else pure g

/-- stb_image.h:2012-2031: codes, `delta` and `maxcode`. -/
def huffGen (h : JHuff) (size : List Nat) : CM HuffGen := do
  let g ← forN 16 (⟨0, 0, h.code, h.maxcode, h.delta, true⟩ : HuffGen) fun i g =>
    if g.ok then do
      let delta ← wrIn g.delta (i + 1) ((g.k : Int) - g.code)
      let g := { g with delta := delta }
      let g ← huffLen size (i + 1) g
      if g.ok then do
        let maxcode ← wrIn g.maxcode (i + 1) (g.code * 2 ^ (16 - (i + 1)) % 4294967296)
        pure { g with maxcode := maxcode, code := g.code * 2 % 4294967296 }
      else pure g
    else pure g
  if g.ok then do
    let maxcode ← wrIn g.maxcode 17 4294967295
    pure { g with maxcode := maxcode }
  else pure g

/-- stb_image.h:2033-2044: the table for short codes. -/
def huffFast (size codes : List Nat) (k : Nat) : CM (List Nat) :=
  forN k (List.replicate 512 255) fun i fast => do
    let s ← rdIn size i
    if s ≤ 9 then do
      let c ← rdIn codes i
      forN (2 ^ (9 - s)) fast fun j fast => wrIn fast (c * 2 ^ (9 - s) + j) (i % 256)
    else pure fast

/-- stb_image.h:1999-2046 `stbi__build_huffman`. -/
def j_build_huffman (h : JHuff) (count : List Nat) : CM (Option JHuff) := do
  match ← huffSizes h.size count with
  | none => pure none
  | some (size, _) => do
    let g ← huffGen h size
    if g.ok then do
      let fast ← huffFast size g.codes g.k
      pure (some { h with size := size, code := g.codes, maxcode := g.maxcode, delta := g.delta, fast := fast })
    else pure none

/-- stb_image.h:2050-2073 `stbi__build_fast_ac`. -/
def j_build_fast_ac (h : JHuff) : CM (List Int) :=
  forN 512 (List.replicate 512 0) fun i fac => do
    let fast ← rdIn h.fast i
    if fast < 255 then do
      let rs ← rdIn h.values fast
      let run := rs / 16 % 16
      let magbits := rs % 16
      let len ← rdIn h.size fast
      if magbits ≠ 0 ∧ len + magbits ≤ 9 then
        let k : Int := (i * 2 ^ len % 512 / 2 ^ (9 - magbits) : Nat)
        let k := if k < 2 ^ (magbits - 1) then k - 2 ^ magbits + 1 else k
        if -128 ≤ k ∧ k ≤ 127 then wrIn fac i (k * 256 + run * 16 + (len + magbits)) else pure fac
      else pure fac
    else pure fac

/-! ### Bits -/

/-- stb_image.h:1976-1979: the file and the state of the entropy decoder. -/
structure Ent where
  s : Ctx
  buf : Nat
  bits : Int
  marker : Nat
  nomore : Bool

/-- Bytes up to the first one that is not FF, which is returned. -/
def afterFF : Nat → Ctx → CM (UInt8 × Ctx)
  | 0, _ => .error .diverge
  | n + 1, s => if (get8 s).1 = 0xFF then afterFF n (get8 s).2 else .ok (get8 s)

/-- An upper bound of the bytes that can be read. -/
def Ctx.fuel (s : Ctx) : Nat := s.buf.length + s.file.length + 2

/-- `code_buffer |= b << (24 - code_bits); code_bits += 8`. -/
def pushByte (j : Ent) (b : Nat) : CM Ent :=
  if 0 ≤ j.bits ∧ j.bits ≤ 24 then .ok { j with buf := j.buf ||| b <<< (24 - j.bits).toNat, bits := j.bits + 8 } else .error .signedOverflow

/-- stb_image.h:2077-2087: one byte; `true` if the function returns because of a marker. -/
def growStep (j : Ent) : CM (Ent × Bool) :=
  if j.nomore then do
    let j ← pushByte j 0
    pure (j, false)
  else if (get8 j.s).1 = 0xFF then do
    let (c, s) ← afterFF j.s.fuel (get8 j.s).2
    if c ≠ 0 then pure ({ j with s := s, marker := c.toNat, nomore := true }, true)
    else do
      let j ← pushByte { j with s := s } 255
      pure (j, false)
  else do
    let j ← pushByte { j with s := (get8 j.s).2 } (get8 j.s).1.toNat
    pure (j, false)

/-- stb_image.h:2075-2091 `stbi__grow_buffer_unsafe`. -/
def grow (j : Ent) : CM Ent :=
  whileFuel 5 j fun j => do
    let (j, stop) ← growStep j
    pure (j, stop || decide (24 < j.bits))

/-- `if (code_bits < n) stbi__grow_buffer_unsafe(j)`. -/
def need (n : Nat) (j : Ent) : CM Ent := if j.bits < n then grow j else pure j

/-- `code_buffer <<= s; code_bits -= s`. -/
def drop (j : Ent) (s : Nat) : Ent := { j with buf := j.buf <<< s % 4294967296, bits := j.bits - s }

/-- stb_image.h:2124-2126: the length of a long code. -/
def findLen (maxcode : List Nat) (temp : Nat) : CM Nat :=
  whileFuel 10 10 fun k => do
    let m ← rdIn maxcode k
    pure (if temp < m then (k, true) else (k + 1, false))

/-- stb_image.h:2097-2147 `stbi__jpeg_huff_decode`. -/
def j_huff_decode (j : Ent) (h : JHuff) : CM (Int × Ent) := do
  let j ← need 16 j
  let k ← rdIn h.fast (j.buf / 2 ^ 23 % 512)
  if k < 255 then do
    let s ← rdIn h.size k
    if j.bits < s then pure (-1, j)
    else do
      let v ← rdIn h.values k
      pure ((v : Int), drop j s)
  else do
    let k ← findLen h.maxcode (j.buf / 2 ^ 16)
    if k = 17 then pure (-1, { j with bits := j.bits - 16 })
    else if j.bits < k then pure (-1, j)
    else do
      let d ← rdIn h.delta k
      let c : Int := (j.buf / 2 ^ (32 - k) % 2 ^ k : Nat) + d
      if c < 0 ∨ 256 ≤ c then pure (-1, j)
      else do
        let s ← rdIn h.size c.toNat
        let w ← rdIn h.code c.toNat
        if s = 0 ∨ j.buf / 2 ^ (32 - s) % 2 ^ s ≠ w then .error .exit
        else do
          let v ← rdIn h.values c.toNat
          pure ((v : Int), drop j k)

/-- stb_image.h:2153-2167 `stbi__extend_receive`, for `n` from 1 to 15. -/
def extend_receive (j : Ent) (n : Nat) : CM (Int × Ent) := do
  let j ← need n j
  if j.bits < n then pure (0, j)
  else
    let k := (j.buf <<< n % 4294967296) ||| (j.buf / 2 ^ (32 - n))
    let v := k % 2 ^ n
    pure ((if j.buf / 2 ^ 31 = 0 then (v : Int) - (2 ^ n - 1) else v), { j with buf := k - v, bits := j.bits - n })

/-- stb_image.h:2196-2209. -/
def jpgZag : List Nat :=
  [0, 1, 8, 16, 9, 2, 3, 10, 17, 24, 32, 25, 18, 11, 4, 5, 12, 19, 26, 33, 40, 48, 41, 34, 27, 20, 13, 6, 7, 14, 21, 28,
   35, 42, 49, 56, 57, 50, 43, 36, 29, 22, 15, 23, 30, 37, 44, 51, 58, 59, 52, 45, 38, 31, 39, 46, 53, 60, 61, 54, 47, 55, 62, 63,
   63, 63, 63, 63, 63, 63, 63, 63, 63, 63, 63, 63, 63, 63, 63]

/-- Conversion to `short`. -/
def asShort (z : Int) : Int := (z + 32768) % 65536 - 32768

/-- stb_image.h:1070-1075 `stbi__addints_valid`. -/
def addintsValid (a b : Int) : Bool :=
  if decide (0 ≤ a) ≠ decide (0 ≤ b) then true
  else if a < 0 ∧ b < 0 then decide (-2147483648 - b ≤ a) else decide (a ≤ 2147483647 - b)

/-- stb_image.h:1078-1084 `stbi__mul2shorts_valid`. -/
def mul2shortsValid (a b : Int) : Bool :=
  if b = 0 ∨ b = -1 then true
  else if decide (0 ≤ a) = decide (0 ≤ b) then decide (a ≤ Int.tdiv 32767 b)
  else if b < 0 then decide (a ≤ Int.tdiv (-32768) b) else decide (Int.tdiv (-32768) b ≤ a)

/-- The variables of the loop over the coefficients. -/
structure AcSt where
  j : Ent
  k : Nat
  data : List Int
  ok : Bool

/-- `data[zig] = (short) (v * dequant[zig])` with `zig = stbi__jpeg_dezigzag[k]`. -/
def putCoef (data : List Int) (dequant : List Nat) (k : Nat) (v : Int) : CM (List Int) := do
  let zig ← rdIn jpgZag k
  let q ← rdIn dequant zig
  let p ← i32 (v * q)
  wrIn data zig (asShort p)

/-- stb_image.h:2232-2266: one code; the second component is `true` when the loop ends. -/
def acStep (hac : JHuff) (fac : List Int) (dequant : List Nat) (a : AcSt) : CM (AcSt × Bool) := do
  let j ← need 16 a.j
  let r ← rdIn fac (j.buf / 2 ^ 23 % 512)
  if r ≠ 0 then do
    let k := a.k + (r / 16 % 16).toNat
    let s := (r % 16).toNat
    if j.bits < s then pure ({ a with j := j, ok := false }, true)
    else do
      let data ← putCoef a.data dequant k (r / 256)
      pure (⟨drop j s, k + 1, data, true⟩, decide (64 ≤ k + 1))
  else do
    let (rs, j) ← j_huff_decode j hac
    if rs < 0 then pure ({ a with j := j, ok := false }, true)
    else if rs % 16 = 0 then
      if rs ≠ 0xF0 then pure ({ a with j := j }, true)
      else pure ({ a with j := j, k := a.k + 16 }, decide (64 ≤ a.k + 16))
    else do
      let k := a.k + (rs / 16).toNat
      let (v, j) ← extend_receive j (rs % 16).toNat
      let data ← putCoef a.data dequant k v
      pure (⟨j, k + 1, data, true⟩, decide (64 ≤ k + 1))

/-- stb_image.h:2224: `t ? stbi__extend_receive(j, t) : 0`. -/
def dcDiff (j : Ent) (t : Int) : CM (Int × Ent) := if t ≠ 0 then extend_receive j t.toNat else pure (0, j)

/-- stb_image.h:2212-2269 `stbi__jpeg_decode_block`: the coefficients times their steps and the new prediction. -/
def j_decode_block (j : Ent) (hdc hac : JHuff) (fac : List Int) (pred : Int) (dequant : List Nat) : CM (Option (List Int × Int × Ent)) := do
  let j ← need 16 j
  let (t, j) ← j_huff_decode j hdc
  if t < 0 ∨ 15 < t then pure none
  else do
    let (diff, j) ← dcDiff j t
    if addintsValid pred diff = false then pure none
    else do
      let dc ← i32 (pred + diff)
      let q ← rdIn dequant 0
      if mul2shortsValid dc q = false then pure none
      else do
        let p ← i32 (dc * q)
        let data ← wrIn (List.replicate 64 0) 0 (asShort p)
        let a ← whileFuel 64 (⟨j, 1, data, true⟩ : AcSt) (acStep hac fac dequant)
        pure (if a.ok then some (a.data, dc, a.j) else none)

/-! ### The state -/

/-- stb_image.h:1963-1975: a component. -/
structure JComp where
  id : Nat
  h : Nat
  v : Nat
  tq : Nat
  hd : Nat
  ha : Nat
  pred : Int
  x : Nat
  y : Nat
  w2 : Nat
  h2 : Nat
  data : Cells UInt8

/-- stb_image.h:1949-1996 `stbi__jpeg`, and the sizes of the image in `stbi__context`. -/
structure Jst where
  e : Ent
  huffDc : List JHuff
  huffAc : List JHuff
  dequant : List (List Nat)
  fastAc : List (List Int)
  comps : List JComp
  imgX : Nat
  imgY : Nat
  imgN : Nat
  hMax : Nat
  vMax : Nat
  mcuX : Nat
  mcuY : Nat
  progressive : Bool
  jfif : Bool
  app14 : Int
  rgb : Nat
  order : List Nat
  restart : Nat
  todo : Int

/-- stb_image.h:4040-4043: the state at first, with `j->s = s`. -/
def Jst.start (s : Ctx) : Jst where
  e := ⟨s, 0, 0, 0, false⟩
  huffDc := List.replicate 4 JHuff.zero
  huffAc := List.replicate 4 JHuff.zero
  dequant := List.replicate 4 (List.replicate 64 0)
  fastAc := List.replicate 4 (List.replicate 512 0)
  comps := List.replicate 4 ⟨0, 0, 0, 0, 0, 0, 0, 0, 0, 0, 0, []⟩
  imgX := 0
  imgY := 0
  imgN := 0
  hMax := 0
  vMax := 0
  mcuX := 0
  mcuY := 0
  progressive := false
  jfif := false
  app14 := -1
  rgb := 0
  order := List.replicate 4 0
  restart := 0
  todo := 0

/-- The state with another position in the file. -/
def Jst.at (j : Jst) (s : Ctx) : Jst := { j with e := { j.e with s := s } }

/-- stb_image.h:1628-1638 `stbi__at_eof`. -/
def at_eof (feof : Ctx → Bool) (s : Ctx) : Bool := feof s && (!s.live || decide (s.buf = []))

/-- stb_image.h:2919-2928 `stbi__get_marker`. -/
def get_marker (j : Jst) : CM (Nat × Jst) :=
  if j.e.marker ≠ 0xFF then .ok (j.e.marker, { j with e := { j.e with marker := 0xFF } })
  else if (get8 j.e.s).1 ≠ 0xFF then .ok (0xFF, j.at (get8 j.e.s).2)
  else do
    let (x, s) ← afterFF j.e.s.fuel (get8 j.e.s).2
    pure (x.toNat, j.at s)

/-! ### Segments -/

/-- `n` bytes. -/
def takeBytes : Nat → Ctx → List Nat × Ctx
  | 0, s => ([], s)
  | n + 1, s =>
    let r := takeBytes n (get8 s).2
    ((get8 s).1.toNat :: r.1, r.2)

/-- `n` numbers of two bytes. -/
def takeWords : Nat → Ctx → List Nat × Ctx
  | 0, s => ([], s)
  | n + 1, s =>
    let r := takeWords n (get16be s).2
    ((get16be s).1 :: r.1, r.2)

/-- stb_image.h:3113-3126: one quantisation table; `none` if it is not valid. -/
def dqtTable (j : Jst) : CM (Option (Jst × Bool)) := do
  let (q, s) := get8 j.e.s
  let p := q.toNat / 16
  let t := q.toNat % 16
  if p ≠ 0 ∧ p ≠ 1 then pure none
  else if 3 < t then pure none
  else do
    let (vals, s) := if p ≠ 0 then takeWords 64 s else takeBytes 64 s
    let old ← rdIn j.dequant t
    let tab ← forN 64 old fun i tab => do
      let z ← rdIn jpgZag i
      let v ← rdIn vals i
      wrIn tab z v
    let dq ← wrIn j.dequant t tab
    pure (some ({ (j.at s) with dequant := dq }, decide (p ≠ 0)))

/-- stb_image.h:3112-3127: quantisation tables; `L` bytes are left. -/
def dqtLoop : Nat → Int → Jst → CM (Option Jst)
  | 0, _, _ => .error .diverge
  | n + 1, L, j =>
    if 0 < L then do
      match ← dqtTable j with
      | none => pure none
      | some (j, sixteen) => dqtLoop n (L - (if sixteen then 129 else 65)) j
    else pure (if L = 0 then some j else none)

/-- stb_image.h:3132-3156: one Huffman table, with the number of values. -/
def dhtTable (j : Jst) : CM (Option (Jst × Nat)) := do
  let (q, s) := get8 j.e.s
  let tc := q.toNat / 16
  let th := q.toNat % 16
  if 1 < tc ∨ 3 < th then pure none
  else do
    let (sizes, s) := takeBytes 16 s
    let n := sizes.sum
    if 256 < n then pure none
    else do
      let h ← rdIn (if tc = 0 then j.huffDc else j.huffAc) th
      match ← j_build_huffman h sizes with
      | none => pure none
      | some h => do
        let (vals, s) := takeBytes n s
        let values ← forN n h.values fun i v => do
          let x ← rdIn vals i
          wrIn v i x
        let h := { h with values := values }
        if tc = 0 then do
          let l ← wrIn j.huffDc th h
          pure (some ({ (j.at s) with huffDc := l }, n))
        else do
          let l ← wrIn j.huffAc th h
          let fac ← j_build_fast_ac h
          let fl ← wrIn j.fastAc th fac
          pure (some ({ (j.at s) with huffAc := l, fastAc := fl }, n))

/-- stb_image.h:3130-3160: Huffman tables; `L` bytes are left. -/
def dhtLoop : Nat → Int → Jst → CM (Option Jst)
  | 0, _, _ => .error .diverge
  | n + 1, L, j =>
    if 0 < L then do
      match ← dhtTable j with
      | none => pure none
      | some (j, k) => dhtLoop n (L - 17 - k) j
    else pure (if L = 0 then some j else none)

/-- stb_image.h:3163-3199: application segments and comments. -/
def appSegment (j : Jst) (m : Nat) : Option Jst :=
  let (L, s) := get16be j.e.s
  if L < 2 then none
  else
    let L := L - 2
    if m = 0xE0 ∧ 5 ≤ L then
      let (t, s) := takeBytes 5 s
      some { (j.at (skip s (L - 5))) with jfif := if t = [0x4A, 0x46, 0x49, 0x46, 0] then true else j.jfif }
    else if m = 0xEE ∧ 12 ≤ L then
      let (t, s) := takeBytes 6 s
      if t = [0x41, 0x64, 0x6F, 0x62, 0x65, 0] then
        let (u, s) := takeBytes 6 s
        some { (j.at (skip s (L - 12))) with app14 := u.getD 5 0 }
      else some (j.at (skip s (L - 6)))
    else some (j.at (skip s L))

/-- stb_image.h:3099-3201 `stbi__process_marker`. -/
def process_marker (j : Jst) (m : Nat) : CM (Option Jst) :=
  if m = 0xFF then pure none
  else if m = 0xDD then
    let (a, s) := get16be j.e.s
    if a ≠ 4 then pure none
    else
      let (b, s) := get16be s
      pure (some { (j.at s) with restart := b })
  else if m = 0xDB then
    let (a, s) := get16be j.e.s
    dqtLoop (a + 1) ((a : Int) - 2) (j.at s)
  else if m = 0xC4 then
    let (a, s) := get16be j.e.s
    dhtLoop (a + 1) ((a : Int) - 2) (j.at s)
  else if (0xE0 ≤ m ∧ m ≤ 0xEF) ∨ m = 0xFE then pure (appSegment j m)
  else pure none

/-- stb_image.h:3211-3222: one component of a scan. -/
def scanComp (j : Jst) (i : Nat) : CM (Option Jst) := do
  let (a, s) := get8 j.e.s
  let (q, s) := get8 s
  let w := (j.comps.take j.imgN).findIdx fun c => c.id = a.toNat
  if (j.comps.take j.imgN).length ≤ w then pure none
  else if 3 < q.toNat / 16 then pure none
  else if 3 < q.toNat % 16 then pure none
  else do
    let c ← rdIn j.comps w
    let comps ← wrIn j.comps w { c with hd := q.toNat / 16, ha := q.toNat % 16 }
    let order ← wrIn j.order i w
    pure (some { (j.at s) with comps := comps, order := order })

/-- stb_image.h:3204-3241 `stbi__process_scan_header` of a sequential file, with `scan_n`. -/
def process_scan_header (j : Jst) : CM (Option (Jst × Nat)) := do
  let (ls, s) := get16be j.e.s
  let (n, s) := get8 s
  let n := n.toNat
  if n < 1 ∨ 4 < n ∨ j.imgN < n then pure none
  else if ls ≠ 6 + 2 * n then pure none
  else do
    let r ← forN n (some (j.at s)) fun i st => match st with
      | none => pure none
      | some j => scanComp j i
    match r with
    | none => pure none
    | some j =>
      let (b, s) := takeBytes 3 j.e.s
      if b.getD 0 0 ≠ 0 then pure none
      else if b.getD 2 0 ≠ 0 then pure none
      else pure (some (j.at s, n))

/-- stb_image.h:3283-3289: component `i` of `n` in a frame header. -/
def frameComp (n : Nat) (j : Jst) (i : Nat) : CM (Option Jst) := do
  let (b, s) := takeBytes 3 j.e.s
  let id := b.getD 0 0
  let h := b.getD 1 0 / 16
  let v := b.getD 1 0 % 16
  let tq := b.getD 2 0
  if h = 0 ∨ 4 < h then pure none
  else if v = 0 ∨ 4 < v then pure none
  else if 3 < tq then pure none
  else do
    let c ← rdIn j.comps i
    let comps ← wrIn j.comps i { c with id := id, h := h, v := v, tq := tq }
    pure (some { (j.at s) with comps := comps, rgb := if n = 3 ∧ id = [0x52, 0x47, 0x42].getD i 0 then j.rgb + 1 else j.rgb })

/-- stb_image.h:3282-3290: the components in a frame header. -/
def frameComps (n : Nat) (j : Jst) : CM (Option Jst) :=
  forN n (some { j with rgb := 0 }) fun i st => match st with
    | none => pure none
    | some j => frameComp n j i

/-- stb_image.h:3320-3353: plane `i`. -/
def framePlane (m : JpegMem) (j : Jst) (i : Nat) : CM (Option Jst) := do
  let c ← rdIn j.comps i
  let w2 := j.mcuX * c.h * 8
  let h2 := j.mcuY * c.v * 8
  if mad2ok w2 h2 15 && m.plane i then do
    let comps ← wrIn j.comps i { c with x := (j.imgX * c.h + j.hMax - 1) / j.hMax, y := (j.imgY * c.v + j.vMax - 1) / j.vMax,
                                        w2 := w2, h2 := h2, data := List.replicate (w2 * h2) none }
    pure (some { j with comps := comps })
  else pure none

/-- stb_image.h:3319-3354: the planes. -/
def framePlanes (m : JpegMem) (j : Jst) : CM (Option Jst) :=
  forN j.imgN (some j) fun i st => match st with
    | none => pure none
    | some j => framePlane m j i

/-- stb_image.h:3264-3357 `stbi__process_frame_header` with `STBI__SCAN_load`. -/
def process_frame_header (m : JpegMem) (j : Jst) : CM (Option Jst) := do
  let (lf, s) := get16be j.e.s
  if lf < 11 then pure none
  else do
    let (p, s) := get8 s
    if p.toNat ≠ 8 then pure none
    else do
      let (y, s) := get16be s
      if y = 0 then pure none
      else do
        let (x, s) := get16be s
        if x = 0 then pure none
        else do
          let (c, s) := get8 s
          let c := c.toNat
          if c ≠ 3 ∧ c ≠ 1 ∧ c ≠ 4 then pure none
          else if lf ≠ 8 + 3 * c then pure none
          else do
            match ← frameComps c { (j.at s) with imgX := x, imgY := y, imgN := c } with
            | none => pure none
            | some j =>
              if mad3ok x y c 0 = false then pure none
              else
                let hm := ((j.comps.take c).map (·.h)).foldl max 1
                let vm := ((j.comps.take c).map (·.v)).foldl max 1
                if (j.comps.take c).any fun k => decide (hm % k.h ≠ 0 ∨ vm % k.v ≠ 0) then pure none
                else framePlanes m { j with hMax := hm, vMax := vm, mcuX := (x + hm * 8 - 1) / (hm * 8), mcuY := (y + vm * 8 - 1) / (vm * 8) }

/-! ### The scan -/

/-- stb_image.h:2936-2947 `stbi__jpeg_reset`. -/
def j_reset (j : Jst) : Jst :=
  { j with e := { j.e with bits := 0, buf := 0, nomore := false, marker := 0xFF }, comps := j.comps.map fun c => { c with pred := 0 },
           todo := if j.restart ≠ 0 then j.restart else 0x7FFFFFFF }

/-- stb_image.h:2968-2969, 3001-3003: one block of component `n` at row `y2` and column `x2` of its plane. -/
def scanBlock (n x2 y2 : Nat) (j : Jst) : CM (Option Jst) := do
  let c ← rdIn j.comps n
  let hdc ← rdIn j.huffDc c.hd
  let hac ← rdIn j.huffAc c.ha
  let fac ← rdIn j.fastAc c.ha
  let dq ← rdIn j.dequant c.tq
  match ← j_decode_block j.e hdc hac fac c.pred dq with
  | none => pure none
  | some (data, pred, e) => do
    let d ← idct_block c.data (c.w2 * y2 + x2) c.w2 data
    let comps ← wrIn j.comps n { c with pred := pred, data := d }
    pure (some { j with e := e, comps := comps })

/-- The outcome of a part of a scan: failure, the end of the scan, or on. -/
inductive ScanOut where
  | fail
  | stop (j : Jst)
  | more (j : Jst)

/-- stb_image.h:2971-2977, 3009-3013: after each MCU. -/
def afterMCU (j : Jst) : CM ScanOut := do
  let t ← i32 (j.todo - 1)
  let j := { j with todo := t }
  if t ≤ 0 then do
    let e ← need 24 j.e
    let j := { j with e := e }
    if 0xD0 ≤ e.marker ∧ e.marker ≤ 0xD7 then pure (.more (j_reset j)) else pure (.stop j)
  else pure (.more j)

/-- stb_image.h:2992-3007: the blocks of component `n` in MCU (`i`, `j`). -/
def mcuComp (i jj n : Nat) (j : Jst) : CM (Option Jst) := do
  let c ← rdIn j.comps n
  forN c.v (some j) fun y st => forN c.h st fun x st => match st with
    | none => pure none
    | some j => scanBlock n ((i * c.h + x) * 8) ((jj * c.v + y) * 8) j

/-- stb_image.h:2988-3014: MCU (`i`, `j`) of an interleaved scan. -/
def scanMCU (scanN i jj : Nat) (j : Jst) : CM ScanOut := do
  let r ← forN scanN (some j) fun k st => match st with
    | none => pure none
    | some j => do
      let n ← rdIn j.order k
      mcuComp i jj n j
  match r with
  | none => pure .fail
  | some j => afterMCU j

/-- One MCU, unless the scan has ended. -/
def scanNext (f : Jst → CM ScanOut) (st : ScanOut) : CM ScanOut :=
  match st with
  | .more j => f j
  | st => pure st

/-- stb_image.h:2953-2980: a scan of one component. -/
def scanOne (j : Jst) : CM ScanOut := do
  let n ← rdIn j.order 0
  let c ← rdIn j.comps n
  forN ((c.y + 7) / 8) (ScanOut.more j) fun y st => forN ((c.x + 7) / 8) st fun x st =>
    scanNext (fun j => do
      match ← scanBlock n (x * 8) (y * 8) j with
      | none => pure .fail
      | some j => afterMCU j) st

/-- stb_image.h:2949-3017 `stbi__parse_entropy_coded_data` of a sequential file. -/
def parse_entropy (scanN : Nat) (j : Jst) : CM (Option Jst) := do
  let j := j_reset j
  match ← (if scanN = 1 then scanOne j else forN j.mcuY (ScanOut.more j) fun jj st => forN j.mcuX st fun i st => scanNext (scanMCU scanN i jj) st) with
  | .fail => pure none
  | .stop j => pure (some j)
  | .more j => pure (some j)

/-! ### The file -/

/-- stb_image.h:3389-3409 `stbi__skip_jpeg_junk_at_end`: the inner loop, then the outer one. -/
def skipJunk (feof : Ctx → Bool) : Nat → Bool → Ctx → CM (Nat × Ctx)
  | 0, _, _ => .error .diverge
  | n + 1, inFF, s =>
    if at_eof feof s then pure (0xFF, s)
    else
      let (x, s) := get8 s
      if inFF ∧ x ≠ 0 ∧ x ≠ 0xFF then pure (x.toNat, s)
      else skipJunk feof n (decide (x = 0xFF)) s

/-- stb_image.h:3359-3387 `stbi__decode_jpeg_header` up to the frame header: the marker of the frame. -/
def headerLoop (feof : Ctx → Bool) : Nat → Nat → Jst → CM (Option (Nat × Jst))
  | 0, _, _ => .error .diverge
  | n + 1, m, j =>
    if m = 0xC0 ∨ m = 0xC1 ∨ m = 0xC2 then pure (some (m, j))
    else do
      match ← process_marker j m with
      | none => pure none
      | some j => do
        let (m, j) ← get_marker j
        let (m, j) ← whileFuel (j.e.s.fuel + 1) (m, j) fun (st : Nat × Jst) =>
          if st.1 = 0xFF then
            if at_eof feof st.2.e.s then pure (st, true)
            else do
              let r ← get_marker st.2
              pure (r, false)
          else pure (st, true)
        if m = 0xFF then pure none else headerLoop feof n m j

/-- stb_image.h:3426-3428: the next marker, if the scan has not found it. -/
def junkAfter (feof : Ctx → Bool) (j : Jst) : CM Jst :=
  if j.e.marker = 0xFF then do
    let (x, s) ← skipJunk feof (j.e.s.fuel + 1) false j.e.s
    pure { j with e := { j.e with s := s, marker := x } }
  else pure j

/-- stb_image.h:3426-3434: the marker after a scan. -/
def afterScan (feof : Ctx → Bool) (j : Jst) : CM (Nat × Jst) := do
  let j ← junkAfter feof j
  let (m, j) ← get_marker j
  if 0xD0 ≤ m ∧ m ≤ 0xD7 then get_marker j else pure (m, j)

/-- The outcome of the loop in `stbi__decode_jpeg_image`. -/
def imageLoop (feof : Ctx → Bool) : Nat → Nat → Jst → CM (Option Jst)
  | 0, _, _ => .error .diverge
  | n + 1, m, j =>
    if m = 0xD9 then pure (some j)
    else if m = 0xDA then do
      match ← process_scan_header j with
      | none => pure none
      | some (j, scanN) => do
        match ← parse_entropy scanN j with
        | none => pure none
        | some j => do
          let (m, j) ← afterScan feof j
          imageLoop feof n m j
    else if m = 0xDC then do
      let (ld, s) := get16be j.e.s
      let (nl, s) := get16be s
      if ld ≠ 4 then pure none
      else if nl ≠ j.imgY then pure none
      else do
        let (m, j) ← get_marker (j.at s)
        imageLoop feof n m j
    else do
      match ← process_marker j m with
      | none => pure (some j)
      | some j' => do
        let (m, j) ← get_marker j'
        imageLoop feof n m j

/-- stb_image.h:3412-3452 `stbi__decode_jpeg_image` of a sequential file; a progressive frame is marked as such. -/
def decode_jpeg_image (mem : JpegMem) (feof : Ctx → Bool) (j : Jst) : CM (Option Jst) := do
  let j := { j with restart := 0, jfif := false, app14 := -1, e := { j.e with marker := 0xFF } }
  let (m, j) ← get_marker j
  if m ≠ 0xD8 then pure none
  else do
    let (m, j) ← get_marker j
    match ← headerLoop feof (j.e.s.fuel + 1) m j with
    | none => pure none
    | some (m, j) =>
      if m = 0xC2 then pure (some { j with progressive := true })
      else do
        match ← process_frame_header mem j with
        | none => pure none
        | some j => do
          let (m, j) ← get_marker j
          imageLoop feof (j.e.s.fuel + 1) m j

/-! ### Pixels -/

/-- stb_image.h:3840-3849 `stbi__resample`; `line0` and `line1` are positions in the plane. -/
structure Resample where
  hs : Nat
  vs : Nat
  wLores : Nat
  ystep : Nat
  ypos : Nat
  line0 : Nat
  line1 : Nat

/-- stb_image.h:3886-3906: the resampler of a component. -/
def resampleStart (j : Jst) (c : JComp) : Resample :=
  let hs := j.hMax / c.h
  let vs := j.vMax / c.v
  ⟨hs, vs, (j.imgX + hs - 1) / hs, vs / 2, 0, 0, 0⟩

/-- stb_image.h:3900-3904 and 3917-3921: the line of a component: how to read it, given a fresh or used line buffer. -/
def resampleRow (c : JComp) (r : Resample) (buf : Cells UInt8) : CM (Cells UInt8 × (Nat → CM UInt8)) := do
  let bot := decide (r.vs / 2 ≤ r.ystep)
  let near : Nat → CM UInt8 := fun i => rd c.data ((if bot then r.line1 else r.line0) + i)
  let far : Nat → CM UInt8 := fun i => rd c.data ((if bot then r.line0 else r.line1) + i)
  if r.hs = 1 ∧ r.vs = 1 then pure (buf, near)
  else do
    let b ← if r.hs = 1 ∧ r.vs = 2 then resample_row_v_2 buf near far r.wLores
      else if r.hs = 2 ∧ r.vs = 1 then resample_row_h_2 buf near r.wLores
      else if r.hs = 2 ∧ r.vs = 2 then resample_row_hv_2 buf near far r.wLores
      else resample_row_generic buf near r.wLores r.hs
    pure (b, fun i => rd b i)

/-- stb_image.h:3922-3927. -/
def resampleNext (c : JComp) (r : Resample) : Resample :=
  if r.vs ≤ r.ystep + 1 then
    { r with ystep := 0, line0 := r.line1, ypos := r.ypos + 1, line1 := if r.ypos + 1 < c.y then r.line1 + c.w2 else r.line1 }
  else { r with ystep := r.ystep + 1 }

/-- stb_image.h:3852-3857 `stbi__blinn_8x8`. -/
def blinn (x y : UInt8) : UInt8 :=
  let t := x.toNat * y.toNat + 128
  UInt8.ofNat ((t + t / 256) / 256)

/-- Four bytes of a pixel. -/
def putPixel (out : Cells UInt8) (p : Nat) (r g b : UInt8) : CM (Cells UInt8) := do
  let out ← wr out p r
  let out ← wr out (p + 1) g
  let out ← wr out (p + 2) b
  wr out (p + 3) 255

/-- stb_image.h:3929-3972: one line of pixels of four bytes. -/
def colourRow (j : Jst) (out : Cells UInt8) (off : Nat) (l : List (Nat → CM UInt8)) : CM (Cells UInt8) :=
  let y := l.getD 0 fun _ => .error .nullDeref
  let c1 := l.getD 1 fun _ => .error .nullDeref
  let c2 := l.getD 2 fun _ => .error .nullDeref
  let c3 := l.getD 3 fun _ => .error .nullDeref
  if j.imgN = 3 then
    if j.rgb = 3 ∨ (j.app14 = 0 ∧ j.jfif = false) then
      forN j.imgX out fun i out => do
        let a ← y i
        let b ← c1 i
        let c ← c2 i
        putPixel out (off + i * 4) a b c
    else ycc_row out off y c1 c2 j.imgX
  else if j.imgN = 4 then
    if j.app14 = 0 then
      forN j.imgX out fun i out => do
        let m ← c3 i
        let a ← y i
        let b ← c1 i
        let c ← c2 i
        putPixel out (off + i * 4) (blinn a m) (blinn b m) (blinn c m)
    else do
      let out ← ycc_row out off y c1 c2 j.imgX
      if j.app14 = 2 then
        forN j.imgX out fun i out => do
          let m ← c3 i
          let a ← rd out (off + i * 4)
          let b ← rd out (off + i * 4 + 1)
          let c ← rd out (off + i * 4 + 2)
          let out ← wr out (off + i * 4) (blinn (255 - a) m)
          let out ← wr out (off + i * 4 + 1) (blinn (255 - b) m)
          wr out (off + i * 4 + 2) (blinn (255 - c) m)
      else pure out
  else
    forN j.imgX out fun i out => do
      let a ← y i
      putPixel out (off + i * 4) a a a

/-- The variables of the loop over the lines. -/
structure LineSt where
  res : List (Resample × Cells UInt8)
  out : Cells UInt8

/-- stb_image.h:3911-3928: the lines of all components. -/
def allRows : List JComp → List (Resample × Cells UInt8) → CM (List (Resample × Cells UInt8) × List (Nat → CM UInt8))
  | c :: cs, (r, b) :: rs => do
    let (b, l) ← resampleRow c r b
    let (rs, ls) ← allRows cs rs
    pure ((resampleNext c r, b) :: rs, l :: ls)
  | _, _ => pure ([], [])

/-- stb_image.h:3873-4031 `load_jpeg_image` with `req_comp` 4, after decoding. -/
def jpeg_pixels (mem : JpegMem) (j : Jst) : CM (Option Loaded) := do
  let cs := j.comps.take j.imgN
  if (List.range j.imgN).all fun k => mem.line k then
    if mad3ok 4 j.imgX j.imgY 1 && mem.out then do
      let st ← forN j.imgY (⟨cs.map fun c => (resampleStart j c, List.replicate (j.imgX + 3) none), List.replicate (4 * j.imgX * j.imgY + 1) none⟩ : LineSt)
        fun y st => do
          let (res, ls) ← allRows cs st.res
          let out ← colourRow j st.out (4 * j.imgX * y) ls
          pure ⟨res, out⟩
      pure (some ⟨j.imgX, j.imgY, if 3 ≤ j.imgN then 3 else 1, st.out⟩)
    else pure none
  else pure none

/-- stb_image.h:3859-4031 `load_jpeg_image` with `req_comp` 4; a progressive file is left to `prog`. -/
def load_jpeg_image (mem : JpegMem) (feof : Ctx → Bool) (prog : CM (Option Loaded)) (s : Ctx) : CM (Option Loaded) := do
  match ← decode_jpeg_image mem feof (Jst.start s) with
  | none => pure none
  | some j => if j.progressive then prog else jpeg_pixels mem j

/-- stb_image.h:4047-4058 `stbi__jpeg_test`. -/
def jpeg_test (mem : JpegMem) (s : Ctx) : CM Bool :=
  if mem.test then do
    let (m, _) ← get_marker { Jst.start s with e := ⟨s, 0, 0, 0xFF, false⟩ }
    pure (decide (m = 0xD8))
  else pure false

/-- stb_image.h:1137-1188 `stbi__load_main` for files: a PNG file, a JPEG file, or left to the other decoders.  The tests before that for
JPEG only accept files that start with `B` (BMP), `G` (GIF), `8` (PSD) or `S` (PIC).  A file that starts with 127 bytes FF makes the test for
JPEG read past the first 128 bytes, to which the file cannot be wound back; it is left out as well. -/
def stbi_load_any (m : PngMem) (mem : JpegMem) (feof : Ctx → Bool) (prog other : CM (Option Loaded)) (file : List UInt8) : CM (Option Loaded) :=
  if (check_png_header (start_file file)).1 then do_png m (start_file file)
  else if file.headD 0 = 0x42 ∨ file.headD 0 = 0x47 ∨ file.headD 0 = 0x38 ∨ file.headD 0 = 0x53 then other
  else if (file.take 127).all (· = 0xFF) then other
  else do
    if ← jpeg_test mem (start_file file) then
      if mem.state then load_jpeg_image mem feof prog (start_file file) else pure none
    else other

end FlatCV.Model
