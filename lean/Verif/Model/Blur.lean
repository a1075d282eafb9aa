/-
Model of `fcv_apply_gaussian_blur` (`src/conversion.c:345-495`).

`exp` of the C library is the parameter `ex`, giving the result for finite arguments; the theorems
state what they assume about it.  `sqrt` is correctly rounded.
-/
import Verif.Core.Mem
import Verif.Core.Ieee
import Verif.Core.Sqrt

namespace FlatCV.Model

/-- `M_PI` as a double. -/
def mPi : ℚ := 884279719003555 / 281474976710656

/-- `exp`; overflow for large positive arguments is not represented (the code only passes
arguments that are not positive). -/
def expD (ex : ℚ → ℚ) : Dbl → Dbl
  | .nan => .nan
  | .inf true => .fin 0
  | .inf false => .inf false
  | .fin q => .fin (ex q)

/-- The sums `weight_sum, r_sum, g_sum, b_sum` (conversion.c:410-413, 460-463). -/
structure BlurAcc where
  w : Dbl
  r : Dbl
  g : Dbl
  b : Dbl

/-- conversion.c:410-413, 460-463. -/
def BlurAcc.zero : BlurAcc := ⟨.fin 0, .fin 0, .fin 0, .fin 0⟩

/-- conversion.c:397-400: `sigma_sq` is folded into `two_sigma_sq`.
Returns `(two_sigma_sq, sqrt_two_pi_sigma)`. -/
def blurSigma (radius : Dbl) : CM (Dbl × Dbl) := do
  let q ← Dbl.div Fmt.b64 radius (.fin 3)
  let sigma := q.conv Fmt.b32
  let sigma_sq := Dbl.mul Fmt.b32 sigma sigma
  let two_sigma_sq := Dbl.mul Fmt.b32 (.fin 2) sigma_sq
  let root ← f64sqrt (2 * mPi)
  pure (two_sigma_sq, (Dbl.mul Fmt.b64 (.fin root) sigma).conv Fmt.b32)

/-- conversion.c:403-404: one kernel entry.  `x * x` is an `int` product. -/
def blurWeight (ex : ℚ → ℚ) (radius two_sigma_sq sqrt_two_pi_sigma : Dbl) (i : Nat) : CM Dbl := do
  let x ← (Dbl.sub Fmt.b64 (.fin (i : ℚ)) radius).toI32
  let xx ← i32 (x * x)
  let nn ← i32 (-xx)
  let a ← Dbl.div Fmt.b32 ((Dbl.fin (nn : ℚ)).conv Fmt.b32) two_sigma_sq
  let v ← Dbl.div Fmt.b64 (expD ex a) sqrt_two_pi_sigma
  pure (v.conv Fmt.b32)

/-- conversion.c:402-405. -/
def blurKernel (ex : ℚ → ℚ) (radius : Dbl) (kernel_size : Nat) (ker : Cells Dbl) :
    CM (Cells Dbl) := do
  let (t, s) ← blurSigma radius
  forU32 kernel_size ker fun i ker => do
    let w ← blurWeight ex radius t s i
    wr ker i w

/-- conversion.c:429-434 and 474-479: add one tap to the sums. -/
def blurTap (ker : Cells Dbl) (kidx : Int) (src : Nat → CM UInt8) (img_rgba_index : Nat)
    (a : BlurAcc) : CM BlurAcc := do
  let weight ← rdZ ker kidx
  let r ← src img_rgba_index
  let g ← src (u32 (img_rgba_index + 1))
  let b ← src (u32 (img_rgba_index + 2))
  pure { w := Dbl.add Fmt.b32 a.w weight
         r := Dbl.add Fmt.b32 a.r (Dbl.mul Fmt.b32 (.fin r.toNat) weight)
         g := Dbl.add Fmt.b32 a.g (Dbl.mul Fmt.b32 (.fin g.toNat) weight)
         b := Dbl.add Fmt.b32 a.b (Dbl.mul Fmt.b32 (.fin b.toNat) weight) }

/-- conversion.c:437-441 and 482-486: write one pixel. -/
def blurStore (out : Cells UInt8) (rgba_index : Nat) (a : BlurAcc) : CM (Cells UInt8) := do
  let r ← (← Dbl.div Fmt.b32 a.r a.w).toU8
  let out ← wr out rgba_index r
  let g ← (← Dbl.div Fmt.b32 a.g a.w).toU8
  let out ← wr out (u32 (rgba_index + 1)) g
  let b ← (← Dbl.div Fmt.b32 a.b a.w).toU8
  let out ← wr out (u32 (rgba_index + 2)) b
  wr out (u32 (rgba_index + 3)) 255

/-- conversion.c:415-435 and 465-480: the loop `for (int32_t k = -radius; k <= radius; k++)`
with a body that gets `k` and `(int32_t)radius`. -/
def blurTaps (radius : ℚ) (body : Int → Int → BlurAcc → CM BlurAcc) : CM BlurAcc := do
  let k0 ← castI32 (-radius)
  let rad ← castI32 radius
  forN (⌊radius⌋ - k0 + 1).toNat BlurAcc.zero fun j a => body (k0 + j) rad a

/-- conversion.c:408-443.  `len` is `img_length_px * 4`. -/
def blurRows (width height len : Nat) (radius : ℚ) (ker : Cells Dbl) (d : List UInt8)
    (out : Cells UInt8) : CM (Cells UInt8) :=
  forU32 height out fun y out =>
    forU32 width out fun x out => do
      let a ← blurTaps radius fun k rad a =>
        let x_offset := i32OfU32 (u32OfInt (x + k))
        if x_offset < 0 ∨ x_offset.toNat ≥ width then pure a
        else
          let img_index := u32 (y * width + x_offset.toNat)
          let img_rgba_index := u32 (img_index * 4)
          if u32 (img_rgba_index + 2) ≥ len then pure a
          else blurTap ker (k + rad) (rdIn d) img_rgba_index a
      blurStore out (u32 (u32 (y * width + x) * 4)) a

/-- conversion.c:458-488. -/
def blurCols (width height : Nat) (radius : ℚ) (ker : Cells Dbl) (tmp : Cells UInt8)
    (out : Cells UInt8) : CM (Cells UInt8) :=
  forU32 width out fun x out =>
    forU32 height out fun y out => do
      let a ← blurTaps radius fun k rad a =>
        let y_offset := i32OfU32 (u32OfInt (y + k))
        if y_offset < 0 ∨ y_offset.toNat ≥ height then pure a
        else
          let img_index := u32 (y_offset.toNat * width + x)
          let img_rgba_index := u32 (img_index * 4)
          blurTap ker (k + rad) (rd tmp) img_rgba_index a
      blurStore out (u32 (u32 (y * width + x) * 4)) a

/-- conversion.c:345-495.  The `memcpy` at 455 copies every cell, written or not. -/
def fcv_apply_gaussian_blur (P : Plat) (ex : ℚ → ℚ) (width height : Nat) (radius : Dbl)
    (data : Option (List UInt8)) : HM (Option (Buf UInt8)) :=
  match data with
  | none => pure none
  | some d =>
    if width = 0 ∨ height = 0 then pure none
    else match radius with
    | .nan => pure none
    | .inf _ => pure none
    | .fin radius =>
      if radius < 0 then pure none
      else if width > P.szMax / height then pure none
      else
        let img_length_px := P.sz (width * height)
        if img_length_px > P.szMax / 4 then pure none
        else
          let img_length_byte := P.sz (img_length_px * 4)
          if radius = 0 then
            allocFill img_length_byte fun out => memcpyIn out 0 d 0 img_length_byte
          else if radius > 1000 then pure none
          else do
            match ← malloc UInt8 img_length_byte with
            | none => pure none
            | some blurred => do
              let kernel_size ← use []
                (Dbl.add Fmt.b64 (Dbl.mul Fmt.b64 (.fin 2) (.fin radius)) (.fin 1)).toU32
              match ← malloc Dbl kernel_size with
              | none => do
                free blurred.id
                pure none
              | some kernel => do
                let ker ← use [kernel.id] (blurKernel ex (.fin radius) kernel_size kernel.cells)
                let rows ← use [blurred.id, kernel.id]
                  (blurRows width height img_length_byte radius ker d blurred.cells)
                match ← malloc UInt8 img_length_byte with
                | none => do
                  free blurred.id
                  free kernel.id
                  pure none
                | some temp => do
                  let out ← use [blurred.id, kernel.id, temp.id]
                    (blurCols width height radius ker rows rows)
                  free temp.id
                  free kernel.id
                  pure (some { blurred with cells := out })

end FlatCV.Model
