/-
Model of the PNG decoder in `include/stb_image.h`, as called by the command line tool: `stbi_load(path, &w, &h, &n, 4)`
(src/cli.c:1546) for a file that starts with the PNG signature.

Simplifications: samples of 8 and of 16 bits are both cells of blocks; the number of bytes of a sample is only used for the sizes
of blocks and for offsets.  Blocks are not released here: the functions below say which allocations are made, not when their
results are freed.  Whether an allocation succeeds is given by a table with one entry for each place.  `memcpy` of no bytes has no
effect, also from or to a null pointer.  `fread` reads as much as the file still has.  `stbi__err` only returns 0.
-/
import Verif.Model.Inflate

namespace FlatCV.Model

/-- Which allocations succeed: the `k`-th enlargement of the collected data, the first output of zlib and the `k`-th enlargement
of it, the image and the filter buffer of pass `p`, the whole image from the passes, the image from the palette, the image with
four channels, the image with 8 bits. -/
structure PngMem where
  idata : Nat → Bool
  zlib : Bool
  grows : Nat → Bool
  out : Nat → Bool
  filter : Nat → Bool
  final : Bool
  palette : Bool
  convert : Bool
  reduce : Bool

/-! ### The file -/

/-- stb_image.h:805-820 `stbi__context` for a file: its bytes, the position of the stream, the bytes from `img_buffer` to
`img_buffer_end`, and `read_from_callbacks`. -/
structure Ctx where
  file : List UInt8
  fpos : Nat
  buf : List UInt8
  live : Bool

/-- stb_image.h:1597-1612 `stbi__refill_buffer`. -/
def refill (s : Ctx) : Ctx :=
  let b := (s.file.drop s.fpos).take 128
  if b = [] then { s with live := false, buf := [0] } else { s with buf := b, fpos := s.fpos + b.length }

/-- stb_image.h:836-846, 877-880 `stbi__start_file`. -/
def start_file (file : List UInt8) : Ctx := refill ⟨file, 0, [], true⟩

/-- `*s->img_buffer++`. -/
def nextByte (s : Ctx) : UInt8 × Ctx := (s.buf.headD 0, { s with buf := s.buf.tail })

/-- stb_image.h:1614-1623 `stbi__get8`. -/
def get8 (s : Ctx) : UInt8 × Ctx :=
  if s.buf ≠ [] then nextByte s else if s.live then nextByte (refill s) else (0, s)

/-- stb_image.h:1694-1698 `stbi__get16be`. -/
def get16be (s : Ctx) : Nat × Ctx :=
  let (a, s) := get8 s
  let (b, s) := get8 s
  (a.toNat * 256 + b.toNat, s)

/-- stb_image.h:1704-1708 `stbi__get32be`. -/
def get32be (s : Ctx) : Nat × Ctx :=
  let (a, s) := get16be s
  let (b, s) := get16be s
  (a * 65536 + b, s)

/-- stb_image.h:1644-1660 `stbi__skip`; the argument is converted from `uint32_t` to `int`. -/
def skip (s : Ctx) (n : Nat) : Ctx :=
  if n = 0 then s
  else if 2147483648 ≤ n then { s with buf := [] }
  else if s.buf.length < n then { s with buf := [], fpos := s.fpos + (n - s.buf.length) }
  else { s with buf := s.buf.drop n }

/-- stb_image.h:1666-1688 `stbi__getn`: the bytes, or `none` if it returns 0. -/
def getn (s : Ctx) (n : Nat) : Option (List UInt8) × Ctx :=
  if s.buf.length < n then
    let more := (s.file.drop s.fpos).take (n - s.buf.length)
    (if more.length = n - s.buf.length then some (s.buf ++ more) else none, { s with buf := [], fpos := s.fpos + more.length })
  else (some (s.buf.take n), { s with buf := s.buf.drop n })

/-- stb_image.h:4621-4628 `stbi__check_png_header`. -/
def check_png_header (s : Ctx) : Bool × Ctx :=
  ([137, 80, 78, 71, 13, 10, 26, 10] : List UInt8).foldl (fun (t : Bool × Ctx) (b : UInt8) =>
    if t.1 then let (v, s) := get8 t.2; (decide (v = b), s) else t) (true, s)

/-! ### Sizes -/

/-- stb_image.h:1014-1020 `stbi__mul2sizes_valid` for arguments that are not negative. -/
def mul2ok (a b : Nat) : Bool := decide (b = 0) || decide (a ≤ 2147483647 / b)

/-- stb_image.h:1002-1010 `stbi__addsizes_valid` for arguments that are not negative. -/
def addok (a b : Nat) : Bool := decide (a ≤ 2147483647 - b)

/-- stb_image.h:1024-1027 `stbi__mad2sizes_valid`. -/
def mad2ok (a b add : Nat) : Bool := mul2ok a b && addok (a * b) add

/-- stb_image.h:1031-1035 `stbi__mad3sizes_valid`. -/
def mad3ok (a b c add : Nat) : Bool := mul2ok a b && mul2ok (a * b) c && addok (a * b * c) add

/-! ### Rows -/

/-- stb_image.h:4648-4655. -/
def first_row_filter : List Nat := [0, 1, 0, 5, 1]

/-- stb_image.h:4657-4668 `stbi__paeth`. -/
def stbPaeth (a b c : Int) : Int :=
  let thresh := c * 3 - (a + b)
  let lo := if a < b then a else b
  let hi := if a < b then b else a
  let t0 := if hi ≤ thresh then lo else c
  if thresh ≤ lo then hi else t0

/-- stb_image.h:4670. -/
def depth_scale_table : List Nat := [0, 0xff, 0x55, 0, 0x11, 0, 0, 0, 0x01]

/-- Row `j`: the bytes after the filter byte in `raw`, where `cur` and `prior` start in the filter buffer, the number of bytes and
the distance to the byte on the left. -/
structure RowArgs where
  raw : Cells UInt8
  pos : Nat
  cur : Nat
  prior : Nat
  nk : Nat
  fb : Nat

/-- One element of `cur`: `raw[k]` and a prediction. -/
def addByte (a : RowArgs) (k : Nat) (p : Nat) (f : Cells UInt8) : CM (Cells UInt8) := do
  let v ← rd a.raw (a.pos + k)
  wr f (a.cur + k) (UInt8.ofNat (v.toNat + p))

/-- `memcpy(cur, raw, n)`. -/
def copyBytes (a : RowArgs) (n : Nat) (f : Cells UInt8) : CM (Cells UInt8) :=
  forN n f fun k f => addByte a k 0 f

/-- stb_image.h:4759-4763: Sub. -/
def filterSub (a : RowArgs) (f : Cells UInt8) : CM (Cells UInt8) := do
  let f ← copyBytes a a.fb f
  forFrom a.fb a.nk f fun k f => do
    let l ← rd f (a.cur + k - a.fb)
    addByte a k l.toNat f

/-- stb_image.h:4764-4767: Up. -/
def filterUp (a : RowArgs) (n : Nat) (f : Cells UInt8) : CM (Cells UInt8) :=
  forN n f fun k f => do
    let u ← rd f (a.prior + k)
    addByte a k u.toNat f

/-- stb_image.h:4768-4773: Average. -/
def filterAvg (a : RowArgs) (f : Cells UInt8) : CM (Cells UInt8) := do
  let f ← forN a.fb f fun k f => do
    let u ← rd f (a.prior + k)
    addByte a k (u.toNat / 2) f
  forFrom a.fb a.nk f fun k f => do
    let u ← rd f (a.prior + k)
    let l ← rd f (a.cur + k - a.fb)
    addByte a k ((u.toNat + l.toNat) / 2) f

/-- stb_image.h:4774-4779: Paeth. -/
def filterPaeth (a : RowArgs) (f : Cells UInt8) : CM (Cells UInt8) := do
  let f ← filterUp a a.fb f
  forFrom a.fb a.nk f fun k f => do
    let l ← rd f (a.cur + k - a.fb)
    let u ← rd f (a.prior + k)
    let ul ← rd f (a.prior + k - a.fb)
    addByte a k (stbPaeth l.toNat u.toNat ul.toNat).toNat f

/-- stb_image.h:4780-4784: Average in the first row. -/
def filterAvgFirst (a : RowArgs) (f : Cells UInt8) : CM (Cells UInt8) := do
  let f ← copyBytes a a.fb f
  forFrom a.fb a.nk f fun k f => do
    let l ← rd f (a.cur + k - a.fb)
    addByte a k (l.toNat / 2) f

/-- stb_image.h:4754-4785: the row is reconstructed. -/
def filterRow (filter : Nat) (a : RowArgs) (f : Cells UInt8) : CM (Cells UInt8) :=
  if filter = 0 then copyBytes a a.nk f
  else if filter = 1 then filterSub a f
  else if filter = 2 then filterUp a a.nk f
  else if filter = 3 then filterAvg a f
  else if filter = 4 then filterPaeth a f
  else filterAvgFirst a f

/-- stb_image.h:4675-4693 `stbi__create_png_alpha_expand8`; `src` reads the source, which may be the destination. -/
def alpha_expand8 (src : Cells Nat → Nat → CM Nat) (dest : Nat) (x n : Nat) (t : Cells Nat) : CM (Cells Nat) :=
  if n = 1 then
    forN x t fun k t => do
      let i := x - 1 - k
      let t ← wr t (dest + (i * 2 + 1)) 255
      let v ← src t i
      wr t (dest + i * 2) v
  else
    forN x t fun k t => do
      let i := x - 1 - k
      let t ← wr t (dest + (i * 4 + 3)) 255
      let v ← src t (i * 3 + 2)
      let t ← wr t (dest + (i * 4 + 2)) v
      let v ← src t (i * 3 + 1)
      let t ← wr t (dest + (i * 4 + 1)) v
      let v ← src t (i * 3)
      wr t (dest + i * 4) v

/-- stb_image.h:4800, 4806, 4813: the byte being taken apart and where the next one is, before sample `i`. -/
def nextIn (cur : Nat) (f : Cells UInt8) (depth i : Nat) (r : Nat × Nat) : CM (Nat × Nat) :=
  if i % (8 / depth) = 0 then do
    let b ← rd f (cur + r.2)
    pure (b.toNat, r.2 + 1)
  else pure r

/-- stb_image.h:4797-4817: samples of 1, 2 or 4 bits; the state is the output, the byte being taken apart, and where the next one is. -/
def expandBits (cur : Nat) (f : Cells UInt8) (dest nsmp depth scale : Nat) (t : Cells Nat) : CM (Cells Nat) := do
  let r ← forN nsmp ((t, 0, 0) : Cells Nat × Nat × Nat) fun i r => do
    let q ← nextIn cur f depth i r.2
    let t ← wr r.1 (dest + i) (scale * (q.1 / 2 ^ (8 - depth)) % 256)
    pure (t, q.1 * 2 ^ depth % 256, q.2)
  pure r.1

/-- `(cur[0] << 8) | cur[1]`. -/
def rd16 (f : Cells UInt8) (i : Nat) : CM Nat := do
  let a ← rd f i
  let b ← rd f (i + 1)
  pure (a.toNat * 256 + b.toNat)

/-- stb_image.h:4827-4852: samples of 16 bits. -/
def expand16 (cur : Nat) (f : Cells UInt8) (dest x n outN : Nat) (t : Cells Nat) : CM (Cells Nat) :=
  if n = outN then
    forN (x * n) t fun i t => do
      let v ← rd16 f (cur + 2 * i)
      wr t (dest + i) v
  else if n = 1 then
    forN x t fun i t => do
      let v ← rd16 f (cur + 2 * i)
      let t ← wr t (dest + 2 * i) v
      wr t (dest + (2 * i + 1)) 65535
  else
    forN x t fun i t => do
      let v ← rd16 f (cur + 6 * i)
      let t ← wr t (dest + 4 * i) v
      let v ← rd16 f (cur + (6 * i + 2))
      let t ← wr t (dest + (4 * i + 1)) v
      let v ← rd16 f (cur + (6 * i + 4))
      let t ← wr t (dest + (4 * i + 2)) v
      wr t (dest + (4 * i + 3)) 65535

/-- stb_image.h:4791: grey values are scaled to 0..255. -/
def rowScale (depth color : Nat) : CM Nat := if color = 0 then rdIn depth_scale_table depth else pure 1

/-- stb_image.h:4789-4852: from the row in the filter buffer at `cur` to the samples at `dest`. -/
def expandRow (cur : Nat) (f : Cells UInt8) (dest x n outN depth color : Nat) (t : Cells Nat) : CM (Cells Nat) :=
  if depth < 8 then do
    let scale ← rowScale depth color
    let t ← expandBits cur f dest (x * n) depth scale t
    if n = outN then pure t else alpha_expand8 (fun t i => rd t (dest + i)) dest x n t
  else if depth = 8 then
    if n = outN then
      forN (x * n) t fun i t => do
        let v ← rd f (cur + i)
        wr t (dest + i) v.toNat
    else alpha_expand8 (fun _ i => do let v ← rd f (cur + i); pure v.toNat) dest x n t
  else expand16 cur f dest x n outN t

/-- The variables of the loop over the rows: filter buffer, image, position in the data, `all_ok`. -/
structure RowState where
  fbuf : Cells UInt8
  out : Cells Nat
  pos : Nat
  ok : Bool

/-- stb_image.h:4752: the first row has its own filters. -/
def rowFilter (j b : Nat) : CM Nat := if j = 0 then rdIn first_row_filter b else pure b

/-- stb_image.h:4737-4853: row `j`. -/
def rowStep (raw : Cells UInt8) (x n outN depth color iwb : Nat) (j : Nat) (s : RowState) : CM (RowState × Bool) := do
  let bytes := if depth = 16 then 2 else 1
  let fb := if depth < 8 then 1 else n * bytes
  let width := if depth < 8 then iwb else x
  let cur := j % 2 * iwb
  let prior := (j + 1) % 2 * iwb
  let b ← rd raw s.pos
  if 4 < b.toNat then pure ({ s with ok := false }, true)
  else do
    let filter ← rowFilter j b.toNat
    let f ← filterRow filter ⟨raw, s.pos + 1, cur, prior, width * fb, fb⟩ s.fbuf
    let out ← expandRow cur f (u32 (u32 (x * outN * bytes) * j) / bytes) x n outN depth color s.out
    pure (⟨f, out, s.pos + 1 + width * fb, true⟩, false)

/-- stb_image.h:4696-4859 `stbi__create_png_image_raw`: the image, or `none` if it returns 0.  `raw_len` is what is left of the data
from `pos` on; `p` is the number of the pass. -/
def create_png_image_raw (m : PngMem) (p : Nat) (raw : Cells UInt8) (pos raw_len n outN x y depth color : Nat) : CM (Option (Cells Nat)) :=
  let bytes := if depth = 16 then 2 else 1
  let iwb := (n * x * depth + 7) / 8
  if !(mad3ok x y (outN * bytes) 0 && m.out p) then pure none
  else if !mad3ok n x depth 7 then pure none
  else if !mad2ok iwb y iwb then pure none
  else if raw_len < u32 ((iwb + 1) * y) then pure none
  else if !(mad2ok iwb 2 0 && m.filter p) then pure none
  else do
    let s ← forBreak y 0 ⟨List.replicate (iwb * 2) none, List.replicate (x * y * outN) none, pos, true⟩
      (rowStep raw x n outN depth color iwb)
    pure (if s.ok then some s.out else none)

/-! ### Passes -/

/-- stb_image.h:4874. -/
def pngXorig : List Nat := [0, 4, 0, 2, 0, 1, 0]
/-- stb_image.h:4875. -/
def pngYorig : List Nat := [0, 0, 4, 0, 2, 0, 1]
/-- stb_image.h:4876. -/
def pngXspc : List Nat := [8, 8, 4, 4, 2, 2, 1]
/-- stb_image.h:4877. -/
def pngYspc : List Nat := [8, 8, 8, 4, 4, 2, 2]

/-- stb_image.h:4888-4895: the pixels of a pass are put into the image. -/
def spread (imgX outN x y xo yo xs ys : Nat) (src dst : Cells Nat) : CM (Cells Nat) :=
  forN y dst fun j dst => forN x dst fun i dst => forN outN dst fun c dst => do
    let v ← rd src ((j * x + i) * outN + c)
    wr dst ((j * ys + yo) * imgX * outN + (i * xs + xo) * outN + c) v

/-- The variables of the loop over the passes: whether all is well, the image, position and number of the remaining data. -/
structure PassState where
  ok : Bool
  final : Cells Nat
  pos : Nat
  len : Nat

/-- stb_image.h:4873-4900: pass `p`. -/
def passStep (m : PngMem) (raw : Cells UInt8) (imgX imgY n outN depth color : Nat) (p : Nat) (s : PassState) : CM (PassState × Bool) := do
  let xo ← rdIn pngXorig p
  let yo ← rdIn pngYorig p
  let xs ← rdIn pngXspc p
  let ys ← rdIn pngYspc p
  let x := u32sub (imgX + xs - 1) xo / xs
  let y := u32sub (imgY + ys - 1) yo / ys
  if x ≠ 0 ∧ y ≠ 0 then do
    let img_len := ((n * x * depth + 7) / 8 + 1) * y
    match ← create_png_image_raw m p raw s.pos s.len n outN x y depth color with
    | none => pure ({ s with ok := false }, true)
    | some out => do
      let final ← spread imgX outN x y xo yo xs ys out s.final
      pure (⟨true, final, s.pos + img_len, s.len - img_len⟩, false)
  else pure (s, false)

/-- stb_image.h:4861-4904 `stbi__create_png_image`. -/
def create_png_image (m : PngMem) (raw : Cells UInt8) (raw_len n outN imgX imgY depth color interlace : Nat) : CM (Option (Cells Nat)) :=
  if interlace = 0 then create_png_image_raw m 0 raw 0 raw_len n outN imgX imgY depth color
  else
    let bytes := if depth = 16 then 2 else 1
    if !(mad3ok imgX imgY (outN * bytes) 0 && m.final) then pure none
    else do
      let s ← forBreak 7 0 ⟨true, List.replicate (imgX * imgY * outN) none, 0, raw_len⟩ (passStep m raw imgX imgY n outN depth color)
      pure (if s.ok then some s.final else none)

/-! ### Colours -/

/-- stb_image.h:4906-4929 `stbi__compute_transparency` and 4931-4954 `stbi__compute_transparency16`; `full` is 255 or 65535. -/
def compute_transparency (count outN full : Nat) (tc : Cells Nat) (t : Cells Nat) : CM (Cells Nat) :=
  if outN = 2 then
    forN count t fun i t => do
      let v ← rd t (i * 2)
      let k ← rd tc 0
      wr t (i * 2 + 1) (if v = k then 0 else full)
  else
    forN count t fun i t => do
      let v0 ← rd t (i * 4)
      let k0 ← rd tc 0
      if v0 = k0 then do
        let v1 ← rd t (i * 4 + 1)
        let k1 ← rd tc 1
        if v1 = k1 then do
          let v2 ← rd t (i * 4 + 2)
          let k2 ← rd tc 2
          if v2 = k2 then wr t (i * 4 + 3) 0 else pure t
        else pure t
      else pure t

/-- stb_image.h:4956-4991 `stbi__expand_png_palette`, for four channels. -/
def expand_png_palette (m : PngMem) (count : Nat) (pal : Cells UInt8) (orig : Cells Nat) : CM (Option (Cells Nat)) :=
  if !(mad2ok count 4 0 && m.palette) then pure none
  else do
    let t ← forN count (List.replicate (count * 4) none) fun i t => do
      let v ← rd orig i
      let p0 ← rd pal (v * 4)
      let t ← wr t (i * 4) p0.toNat
      let p1 ← rd pal (v * 4 + 1)
      let t ← wr t (i * 4 + 1) p1.toNat
      let p2 ← rd pal (v * 4 + 2)
      let t ← wr t (i * 4 + 2) p2.toNat
      let p3 ← rd pal (v * 4 + 3)
      wr t (i * 4 + 3) p3.toNat
    pure (some t)

/-! ### Chunks -/

/-- The variables of `stbi__parse_png_file` and the parts of `stbi__png` and `stbi__context` that it uses.  `idata` is the block
with the collected data, empty for a null pointer; `grown` counts the calls of `realloc`. -/
structure PState where
  s : Ctx
  x : Nat
  y : Nat
  n : Nat
  depth : Nat
  color : Nat
  interlace : Nat
  first : Bool
  iphone : Bool
  palN : Nat
  palLen : Nat
  pal : Cells UInt8
  trans : Bool
  tc : Cells Nat
  tc16 : Cells Nat
  idata : Cells UInt8
  ioff : Nat
  grown : Nat

/-- The state before the first chunk; fields that are not initialised in C are only read after they were set. -/
def PState.start (s : Ctx) : PState :=
  ⟨s, 0, 0, 0, 0, 0, 0, true, false, 0, 0, List.replicate 1024 none, false, List.replicate 3 (some 0), List.replicate 3 none, [], 0, 0⟩

/-- stb_image.h:5102-5130: IHDR; `none` is a return with 0. -/
def chunkIHDR (len : Nat) (t : PState) : Option PState :=
  if !t.first then none
  else if len ≠ 13 then none
  else
    let (x, s) := get32be t.s
    let (y, s) := get32be s
    let (depth, s) := get8 s
    let (color, s) := get8 s
    let (comp, s) := get8 s
    let (filter, s) := get8 s
    let (interlace, s) := get8 s
    if 16777216 < y ∨ 16777216 < x then none
    else if depth.toNat ∉ [1, 2, 4, 8, 16] then none
    else if 6 < color.toNat then none
    else if color.toNat = 3 ∧ depth.toNat = 16 then none
    else if color.toNat ≠ 3 ∧ color.toNat % 2 = 1 then none
    else if comp ≠ 0 ∨ filter ≠ 0 ∨ 1 < interlace.toNat then none
    else if x = 0 ∨ y = 0 then none
    else if color.toNat = 3 then
      if 1073741824 / x / 4 < y then none
      else some { t with s := s, x := x, y := y, n := 1, depth := depth.toNat, color := 3, interlace := interlace.toNat, first := false, palN := 3 }
    else
      let n := (if color.toNat / 2 % 2 = 1 then 3 else 1) + (if color.toNat / 4 % 2 = 1 then 1 else 0)
      if 1073741824 / x / n < y then none
      else some { t with s := s, x := x, y := y, n := n, depth := depth.toNat, color := color.toNat, interlace := interlace.toNat, first := false }

/-- stb_image.h:5132-5144: PLTE. -/
def chunkPLTE (len : Nat) (t : PState) : CM (Option PState) :=
  if t.first then pure none
  else if 768 < len then pure none
  else if len / 3 * 3 ≠ len then pure none
  else do
    let (pal, s) ← forN (len / 3) ((t.pal, t.s) : Cells UInt8 × Ctx) fun i r => do
      let (a, s) := get8 r.2
      let (b, s) := get8 s
      let (c, s) := get8 s
      let pal ← wr r.1 (i * 4) a
      let pal ← wr pal (i * 4 + 1) b
      let pal ← wr pal (i * 4 + 2) c
      let pal ← wr pal (i * 4 + 3) 255
      pure (pal, s)
    pure (some { t with s := s, pal := pal, palLen := len / 3 })

/-- stb_image.h:5156-5169: tRNS without palette; each channel has two bytes. -/
def transColour (t : PState) : CM PState :=
  if t.depth = 16 then do
    let (tc16, s) ← forN (min t.n 3) ((t.tc16, t.s) : Cells Nat × Ctx) fun k r => do
      let (v, s) := get16be r.2
      let tc ← wr r.1 k v
      pure (tc, s)
    pure { t with s := s, tc16 := tc16, trans := true }
  else do
    let scale ← rdIn depth_scale_table t.depth
    let (tc, s) ← forN (min t.n 3) ((t.tc, t.s) : Cells Nat × Ctx) fun k r => do
      let (v, s) := get16be r.2
      let tc ← wr r.1 k (v % 256 * scale % 256)
      pure (tc, s)
    pure { t with s := s, tc := tc, trans := true }

/-- stb_image.h:5146-5171: tRNS. -/
def chunkTRNS (len : Nat) (t : PState) : CM (Option PState) :=
  if t.first then pure none
  else if t.idata ≠ [] then pure none
  else if t.palN ≠ 0 then
    if t.palLen = 0 then pure none
    else if t.palLen < len then pure none
    else do
      let (pal, s) ← forN len ((t.pal, t.s) : Cells UInt8 × Ctx) fun i r => do
        let (a, s) := get8 r.2
        let pal ← wr r.1 (i * 4 + 3) a
        pure (pal, s)
      pure (some { t with s := s, pal := pal, palN := 4 })
  else if t.n % 2 = 0 then pure none
  else if len ≠ t.n * 2 then pure none
  else do
    let t ← transColour t
    pure (some t)

/-- stb_image.h:5187-5189: the new size of the block for the data. -/
def idataLimit (need len limit : Nat) : CM Nat :=
  whileFuel 33 (if limit = 0 then (if 4096 < len then len else 4096) else limit) fun l =>
    if l < need then pure (u32 (l * 2), false) else pure (l, true)

/-- stb_image.h:5184-5193: enough room for the data, `none` if there is no memory. -/
def idataRoom (m : PngMem) (len : Nat) (t : PState) : CM (Option PState) :=
  if t.idata.length < t.ioff + len then do
    let l ← idataLimit (t.ioff + len) len t.idata.length
    if m.idata t.grown then
      pure (some { t with idata := t.idata ++ List.replicate (l - t.idata.length) none, grown := t.grown + 1 })
    else pure none
  else pure (some t)

/-- stb_image.h:5173-5197: IDAT. -/
def chunkIDAT (m : PngMem) (len : Nat) (t : PState) : CM (Option PState) :=
  if t.first then pure none
  else if t.palN ≠ 0 ∧ t.palLen = 0 then pure none
  else if 1073741824 < len then pure none
  else if i32OfU32 (t.ioff + len) < i32OfU32 t.ioff then pure none
  else do
    match ← idataRoom m len t with
    | none => pure none
    | some t =>
      match getn t.s len with
      | (none, _) => pure none
      | (some l, s) => do
        let d ← memcpyIn t.idata t.ioff l 0 len
        pure (some { t with s := s, idata := d, ioff := t.ioff + len })

/-- What the decoder has found: size, channels in the file, channels and depth of the samples. -/
structure Decoded where
  x : Nat
  y : Nat
  n : Nat
  outN : Nat
  depth : Nat
  out : Cells Nat

/-- stb_image.h:5215-5221: the pixels of the transparent colour. -/
def applyTrans (t : PState) (outN : Nat) (out : Cells Nat) : CM (Cells Nat) :=
  if t.trans then
    if t.depth = 16 then compute_transparency (u32 (t.x * t.y)) outN 65535 t.tc16 out
    else compute_transparency (u32 (t.x * t.y)) outN 255 t.tc out
  else pure out

/-- stb_image.h:5210-5238: from the decompressed data to the image. -/
def finishImage (m : PngMem) (raw : Cells UInt8) (raw_len : Nat) (t : PState) : CM (Option Decoded) := do
  let outN := if (4 = t.n + 1 ∧ t.palN = 0) ∨ t.trans = true then t.n + 1 else t.n
  match ← create_png_image m raw raw_len t.n outN t.x t.y t.depth t.color t.interlace with
  | none => pure none
  | some out => do
    let out ← applyTrans t outN out
    if t.palN ≠ 0 then do
      match ← expand_png_palette m (u32 (t.x * t.y)) t.pal out with
      | none => pure none
      | some out => pure (some ⟨t.x, t.y, t.palN, 4, t.depth, out⟩)
    else pure (some ⟨t.x, t.y, if t.trans then t.n + 1 else t.n, outN, t.depth, out⟩)

/-- stb_image.h:5199-5209: IEND, up to the decompression. -/
def chunkIEND (m : PngMem) (t : PState) : CM (Option Decoded) :=
  if t.first then pure none
  else if t.idata = [] then pure none
  else do
    let bpl := u32 (t.x * t.depth + 7) / 8
    let guess := u32 (bpl * t.y * t.n + t.y)
    if 2147483648 ≤ guess ∨ m.zlib = false then pure none
    else do
      let data ← asInput (t.idata.take t.ioff)
      let (ok, z) ← zlib_decode data guess m.grows (!t.iphone)
      if ok then finishImage m z.out (u32 z.zout) t else pure none

/-- How a chunk ends the loop. -/
inductive ChunkEnd where
  | more (t : PState)
  | fail
  | done (d : Decoded)

/-- The chunk goes on with `t`, or the function returns 0; the CRC is skipped (5258-5259). -/
def afterChunk (r : Option PState) : ChunkEnd :=
  match r with
  | none => .fail
  | some t => .more { t with s := (get32be t.s).2 }

/-- stb_image.h:5076: `STBI__PNG_TYPE`. -/
def pngType (a b c d : Char) : Nat := a.toNat * 16777216 + b.toNat * 65536 + c.toNat * 256 + d.toNat

/-- stb_image.h:5097-5257: a chunk of type `type` after its header. -/
def chunkBody (m : PngMem) (type len : Nat) (t : PState) : CM ChunkEnd :=
  if type = pngType 'C' 'g' 'B' 'I' then pure (afterChunk (some { t with iphone := true, s := skip t.s len }))
  else if type = pngType 'I' 'H' 'D' 'R' then pure (afterChunk (chunkIHDR len t))
  else if type = pngType 'P' 'L' 'T' 'E' then do pure (afterChunk (← chunkPLTE len t))
  else if type = pngType 't' 'R' 'N' 'S' then do pure (afterChunk (← chunkTRNS len t))
  else if type = pngType 'I' 'D' 'A' 'T' then do pure (afterChunk (← chunkIDAT m len t))
  else if type = pngType 'I' 'E' 'N' 'D' then do
    match ← chunkIEND m t with
    | none => pure .fail
    | some d => pure (.done d)
  else if t.first then pure .fail
  else if type / 536870912 % 2 = 0 then pure .fail
  else pure (afterChunk (some { t with s := skip t.s len }))

/-- stb_image.h:5095-5260: a chunk. -/
def chunkStep (m : PngMem) (t : PState) : CM ChunkEnd :=
  let (len, s) := get32be t.s
  let (type, s) := get32be s
  chunkBody m type len { t with s := s }

/-- stb_image.h:5095-5260: the loop; each round takes at least a byte from the file. -/
def parseChunks (m : PngMem) : Nat → PState → CM (Option Decoded)
  | 0, _ => .error .diverge
  | f + 1, t => do
    match ← chunkStep m t with
    | .more t => parseChunks m f t
    | .fail => pure none
    | .done d => pure (some d)

/-- stb_image.h:5078-5261 `stbi__parse_png_file` with `STBI__SCAN_load` and `req_comp` 4. -/
def parse_png_file (m : PngMem) (s : Ctx) : CM (Option Decoded) :=
  let (ok, s) := check_png_header s
  if ok then parseChunks m (s.file.length + 2) (PState.start s) else pure none

/-! ### Conversion -/

/-- A source sample, or a value that is known. -/
def rdIf (b : Prop) [Decidable b] (src : Cells Nat) (i v : Nat) : CM Nat := if b then rd src i else pure v

/-- stb_image.h:1755-1797 `stbi__convert_format` and 1812-1854 `stbi__convert_format16` to four channels: the loops. -/
def toFour (count n full : Nat) (src t : Cells Nat) : CM (Cells Nat) :=
  forN count t fun i t => do
    let v0 ← rd src (i * n)
    let v1 ← rdIf (n = 3) src (i * n + 1) v0
    let v2 ← rdIf (n = 3) src (i * n + 2) v0
    let v3 ← rdIf (n = 2) src (i * n + 1) full
    let t ← wr t (i * 4) v0
    let t ← wr t (i * 4 + 1) v1
    let t ← wr t (i * 4 + 2) v2
    wr t (i * 4 + 3) v3

/-- The result of the decoder: width, height, channels in the file, the pixels. -/
structure Loaded where
  x : Nat
  y : Nat
  n : Nat
  data : Cells UInt8

/-- The samples as bytes. -/
def asBytes (t : Cells Nat) : Cells UInt8 := t.map (Option.map UInt8.ofNat)

/-- stb_image.h:1190-1204 `stbi__convert_16_to_8`. -/
def convert_16_to_8 (m : PngMem) (x y : Nat) (t : Cells Nat) : CM (Option (Cells Nat)) := do
  let wh ← i32 ((x : Int) * y)
  let len ← i32 (wh * 4)
  if m.reduce then do
    let r ← forN len.toNat (List.replicate len.toNat none) fun i r => do
      let v ← rd t i
      wr r i (v / 256 % 256)
    pure (some r)
  else pure none

/-- stb_image.h:1755-1797 `stbi__convert_format` with `req_comp` 4. -/
def convert_format (m : PngMem) (d : Decoded) : CM (Option (Cells Nat)) :=
  if d.outN = 4 then pure (some d.out)
  else if !(mad3ok 4 d.x d.y 0 && m.convert) then pure none
  else do
    let t ← toFour (d.x * d.y) d.outN 255 d.out (List.replicate (4 * d.x * d.y) none)
    pure (some t)

/-- stb_image.h:1812-1854 `stbi__convert_format16` with `req_comp` 4; the size of the block is computed in `unsigned int`. -/
def convert_format16 (m : PngMem) (d : Decoded) : CM (Option (Cells Nat)) :=
  if d.outN = 4 then pure (some d.out)
  else if !m.convert then pure none
  else do
    let t ← toFour (d.x * d.y) d.outN 65535 d.out (List.replicate (u32 (4 * d.x * d.y * 2) / 2) none)
    pure (some t)

/-- stb_image.h:5263-5300 `stbi__do_png` and 1250-1272 `stbi__load_and_postprocess_8bit`. -/
def do_png (m : PngMem) (s : Ctx) : CM (Option Loaded) := do
  match ← parse_png_file m s with
  | none => pure none
  | some d =>
    if d.depth ≤ 8 then do
      match ← convert_format m d with
      | none => pure none
      | some t => pure (some ⟨d.x, d.y, d.n, asBytes t⟩)
    else do
      match ← convert_format16 m d with
      | none => pure none
      | some t => do
        match ← convert_16_to_8 m d.x d.y t with
        | none => pure none
        | some t => pure (some ⟨d.x, d.y, d.n, asBytes t⟩)

/-- stb_image.h:1366-1387 `stbi_load` of a file with the given contents, 1137-1188 `stbi__load_main`: files that do not start with the
PNG signature are left to the other decoders. -/
def stbi_load (m : PngMem) (other : CM (Option Loaded)) (file : List UInt8) : CM (Option Loaded) :=
  if (check_png_header (start_file file)).1 then do_png m (start_file file) else other

end FlatCV.Model
