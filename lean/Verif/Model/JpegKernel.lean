/-
Model of the arithmetic kernels of the JPEG decoder in `include/stb_image.h`: the inverse cosine transform, the enlargement of
subsampled components and the conversion to RGB.

Simplifications: only the scalar kernels are modelled (stb_image.h:2467, 3502, 3660); the comments at 2533 and 3659 say that the SIMD
kernels give the same results.  `>>` of a negative `int` rounds down, as compilers define it.  The constants of `STBI__IDCT_1D` and of
`stbi__YCbCr_to_RGB_row` are the values of the macros, see `f2f` and `float2fixed` below and `Props/JpegKernel.lean`.
-/
import Verif.Core.Mem
import Verif.Core.Ieee
import Verif.Model.Jpeg

namespace FlatCV.Model

/-- stb_image.h:2425 `stbi__f2f`: the argument is a `float`, 0.5 a `double`. -/
def f2f (x : ℚ) : CM Int := (Dbl.add Fmt.b64 (Dbl.mul Fmt.b32 (flt x) (.fin 4096)) (.fin (1 / 2))).toI32

/-- stb_image.h:3659 `stbi__float2fixed`. -/
def float2fixed (x : ℚ) : CM Int := do
  let v ← (Dbl.add Fmt.b32 (Dbl.mul Fmt.b32 (flt x) (.fin 4096)) (.fin (1 / 2))).toI32
  i32 (v * 256)

/-- stb_image.h:2416-2423 `stbi__clamp`. -/
def stbClamp (x : Int) : UInt8 := if x < 0 then 0 else if 255 < x then 255 else UInt8.ofNat x.toNat

/-- stb_image.h:2429-2465 `STBI__IDCT_1D`: `x0`, `x1`, `x2`, `x3`, `t0`, `t1`, `t2`, `t3` at its end. -/
def idct1D (s : Oct Int) : CM (Oct Int) := do
  let a ← i32 (s.d2 + s.d6)
  let p1 ← i32 (a * 2217)
  let b ← i32 (s.d6 * -7567)
  let t2 ← i32 (p1 + b)
  let c ← i32 (s.d2 * 3135)
  let t3 ← i32 (p1 + c)
  let d ← i32 (s.d0 + s.d4)
  let t0 ← i32 (d * 4096)
  let e ← i32 (s.d0 - s.d4)
  let t1 ← i32 (e * 4096)
  let x0 ← i32 (t0 + t3)
  let x3 ← i32 (t0 - t3)
  let x1 ← i32 (t1 + t2)
  let x2 ← i32 (t1 - t2)
  let p3 ← i32 (s.d7 + s.d3)
  let p4 ← i32 (s.d5 + s.d1)
  let p1 ← i32 (s.d7 + s.d1)
  let p2 ← i32 (s.d5 + s.d3)
  let f ← i32 (p3 + p4)
  let p5 ← i32 (f * 4816)
  let t0 ← i32 (s.d7 * 1223)
  let t1 ← i32 (s.d5 * 8410)
  let t2 ← i32 (s.d3 * 12586)
  let t3 ← i32 (s.d1 * 6149)
  let g ← i32 (p1 * -3685)
  let p1 ← i32 (p5 + g)
  let g ← i32 (p2 * -10497)
  let p2 ← i32 (p5 + g)
  let p3 ← i32 (p3 * -8034)
  let p4 ← i32 (p4 * -1597)
  let g ← i32 (p1 + p4)
  let t3 ← i32 (t3 + g)
  let g ← i32 (p2 + p3)
  let t2 ← i32 (t2 + g)
  let g ← i32 (p2 + p4)
  let t1 ← i32 (t1 + g)
  let g ← i32 (p1 + p3)
  let t0 ← i32 (t0 + g)
  pure ⟨x0, x1, x2, x3, t0, t1, t2, t3⟩

/-- stb_image.h:2488-2496 and 2509-2527: `x0` to `x3` plus `bias`, then the eight sums and differences shifted right by `sh`. -/
def butterfly (bias : Int) (sh : Nat) (q : Oct Int) : CM (Oct Int) := do
  let x0 ← i32 (q.d0 + bias)
  let x1 ← i32 (q.d1 + bias)
  let x2 ← i32 (q.d2 + bias)
  let x3 ← i32 (q.d3 + bias)
  let a0 ← i32 (x0 + q.d7)
  let a7 ← i32 (x0 - q.d7)
  let a1 ← i32 (x1 + q.d6)
  let a6 ← i32 (x1 - q.d6)
  let a2 ← i32 (x2 + q.d5)
  let a5 ← i32 (x2 - q.d5)
  let a3 ← i32 (x3 + q.d4)
  let a4 ← i32 (x3 - q.d4)
  pure ⟨a0 / 2 ^ sh, a1 / 2 ^ sh, a2 / 2 ^ sh, a3 / 2 ^ sh, a4 / 2 ^ sh, a5 / 2 ^ sh, a6 / 2 ^ sh, a7 / 2 ^ sh⟩

/-- `d[0]`, `d[step]`, …, `d[7 * step]` from position `i` on. -/
def take8 (rdAt : Nat → CM Int) (i step : Nat) : CM (Oct Int) := do
  let d0 ← rdAt i
  let d1 ← rdAt (i + step)
  let d2 ← rdAt (i + 2 * step)
  let d3 ← rdAt (i + 3 * step)
  let d4 ← rdAt (i + 4 * step)
  let d5 ← rdAt (i + 5 * step)
  let d6 ← rdAt (i + 6 * step)
  let d7 ← rdAt (i + 7 * step)
  pure ⟨d0, d1, d2, d3, d4, d5, d6, d7⟩

/-- Eight elements written at `i`, `i + step`, …, `i + 7 * step`. -/
def put8 {α : Type} (v : Cells α) (i step : Nat) (a : Oct α) : CM (Cells α) := do
  let v ← wr v i a.d0
  let v ← wr v (i + step) a.d1
  let v ← wr v (i + 2 * step) a.d2
  let v ← wr v (i + 3 * step) a.d3
  let v ← wr v (i + 4 * step) a.d4
  let v ← wr v (i + 5 * step) a.d5
  let v ← wr v (i + 6 * step) a.d6
  wr v (i + 7 * step) a.d7

/-- stb_image.h:2474-2498: column `i`. -/
def idctColumn (data : List Int) (i : Nat) (v : Cells Int) : CM (Cells Int) := do
  let s ← take8 (rdIn data) i 8
  if s.d1 = 0 ∧ s.d2 = 0 ∧ s.d3 = 0 ∧ s.d4 = 0 ∧ s.d5 = 0 ∧ s.d6 = 0 ∧ s.d7 = 0 then do
    let t ← i32 (s.d0 * 4)
    put8 v i 8 ⟨t, t, t, t, t, t, t, t⟩
  else do
    let q ← idct1D s
    let a ← butterfly 512 10 q
    put8 v i 8 a

/-- stb_image.h:2500-2528: row `i`, written to `out` at `off`. -/
def idctRow (v : Cells Int) (i : Nat) (off : Nat) (out : Cells UInt8) : CM (Cells UInt8) := do
  let s ← take8 (rd v) (8 * i) 1
  let q ← idct1D s
  let a ← butterfly (65536 + 16777216) 17 q
  put8 out off 1 ⟨stbClamp a.d0, stbClamp a.d1, stbClamp a.d2, stbClamp a.d3, stbClamp a.d4, stbClamp a.d5, stbClamp a.d6, stbClamp a.d7⟩

/-- stb_image.h:2467-2529 `stbi__idct_block`; `out` is position `off` of the block. -/
def idct_block (out : Cells UInt8) (off stride : Nat) (data : List Int) : CM (Cells UInt8) := do
  let v ← forN 8 (List.replicate 64 none) fun i v => idctColumn data i v
  forN 8 out fun i out => idctRow v i (off + i * stride) out

/-! ### Enlargement -/

/-- stb_image.h:3454 `stbi__div4`, 3500 `stbi__div16` for arguments that are not negative. -/
def div4 (x : Nat) : UInt8 := UInt8.ofNat (x / 4)
def div16 (x : Nat) : UInt8 := UInt8.ofNat (x / 16)

/-- stb_image.h:3465-3473 `stbi__resample_row_v_2`. -/
def resample_row_v_2 (out : Cells UInt8) (near far : Nat → CM UInt8) (w : Nat) : CM (Cells UInt8) :=
  forN w out fun i out => do
    let a ← near i
    let b ← far i
    wr out i (div4 (3 * a.toNat + b.toNat + 2))

/-- stb_image.h:3475-3498 `stbi__resample_row_h_2`. -/
def resample_row_h_2 (out : Cells UInt8) (input : Nat → CM UInt8) (w : Nat) : CM (Cells UInt8) :=
  if w = 1 then do
    let a ← input 0
    let out ← wr out 1 a
    wr out 0 a
  else do
    let a ← input 0
    let b ← input 1
    let out ← wr out 0 a
    let out ← wr out 1 (div4 (a.toNat * 3 + b.toNat + 2))
    let out ← forN (w - 2) out fun k out => do
      let m ← input (k + 1)
      let l ← input k
      let r ← input (k + 2)
      let out ← wr out ((k + 1) * 2) (div4 (3 * m.toNat + 2 + l.toNat))
      wr out ((k + 1) * 2 + 1) (div4 (3 * m.toNat + 2 + r.toNat))
    let a ← input (w - 2)
    let b ← input (w - 1)
    let out ← wr out ((w - 1) * 2) (div4 (a.toNat * 3 + b.toNat + 2))
    wr out ((w - 1) * 2 + 1) b

/-- stb_image.h:3502-3526 `stbi__resample_row_hv_2`. -/
def resample_row_hv_2 (out : Cells UInt8) (near far : Nat → CM UInt8) (w : Nat) : CM (Cells UInt8) := do
  let a ← near 0
  let b ← far 0
  if w = 1 then do
    let out ← wr out 1 (div4 (3 * a.toNat + b.toNat + 2))
    wr out 0 (div4 (3 * a.toNat + b.toNat + 2))
  else do
    let t1 := 3 * a.toNat + b.toNat
    let out ← wr out 0 (div4 (t1 + 2))
    let (out, t1) ← forN (w - 1) (out, t1) fun k (st : Cells UInt8 × Nat) => do
      let (out, t0) := st
      let a ← near (k + 1)
      let b ← far (k + 1)
      let t1 := 3 * a.toNat + b.toNat
      let out ← wr out ((k + 1) * 2 - 1) (div16 (3 * t0 + t1 + 8))
      let out ← wr out ((k + 1) * 2) (div16 (3 * t1 + t0 + 8))
      pure (out, t1)
    wr out (w * 2 - 1) (div4 (t1 + 2))

/-- stb_image.h:3646-3655 `stbi__resample_row_generic`. -/
def resample_row_generic (out : Cells UInt8) (near : Nat → CM UInt8) (w hs : Nat) : CM (Cells UInt8) :=
  forN w out fun i out => forN hs out fun j out => do
    let a ← near i
    wr out (i * hs + j) a

/-! ### Colours -/

/-- An `unsigned int` converted to `int`. -/
def asSigned32 (z : Int) : Int := (z + 2147483648) % 4294967296 - 2147483648

/-- stb_image.h:3664-3679: one pixel.  In `g` the mask makes the sum unsigned; it is converted back to `int`. -/
def ycc_pixel (y pcb pcr : UInt8) : CM (UInt8 × UInt8 × UInt8) := do
  let y1 ← i32 (y.toNat * 1048576)
  let yf ← i32 (y1 + 524288)
  let cr ← i32 (pcr.toNat - 128)
  let cb ← i32 (pcb.toNat - 128)
  let a ← i32 (cr * (5743 * 256))
  let r ← i32 (yf + a)
  let b ← i32 (cr * -(2925 * 256))
  let c ← i32 (yf + b)
  let d ← i32 (cb * -(1410 * 256))
  let g := asSigned32 (c + d / 65536 * 65536)
  let e ← i32 (cb * (7258 * 256))
  let b ← i32 (yf + e)
  pure (stbClamp (r / 1048576), stbClamp (g / 1048576), stbClamp (b / 1048576))

/-- stb_image.h:3660-3687 `stbi__YCbCr_to_RGB_row` with a step of 4, written to `out` at `off`. -/
def ycc_row (out : Cells UInt8) (off : Nat) (y pcb pcr : Nat → CM UInt8) (count : Nat) : CM (Cells UInt8) :=
  forN count out fun i out => do
    let a ← y i
    let c ← pcr i
    let b ← pcb i
    let (r, g, b) ← ycc_pixel a b c
    let out ← wr out (off + i * 4) r
    let out ← wr out (off + i * 4 + 1) g
    let out ← wr out (off + i * 4 + 2) b
    wr out (off + i * 4 + 3) 255

end FlatCV.Model
