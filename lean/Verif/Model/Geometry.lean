/-
Model of `src/flip.c`, `src/rotate.c` and `src/crop.c`.
-/
import Verif.Core.Mem

namespace FlatCV.Model

/-- Copy of the four bytes of one pixel, e.g. flip.c:46-49:
`out[dst] = data[src]; out[dst+1] = data[src+1]; …` with `size_t` indices. -/
def copy4 (P : Plat) (d : List UInt8) (src : Nat) (out : Cells UInt8) (dst : Nat) :
    CM (Cells UInt8) := do
  let out ← wr out dst (← rdIn d src)
  let out ← wr out (P.sz (dst + 1)) (← rdIn d (P.sz (src + 1)))
  let out ← wr out (P.sz (dst + 2)) (← rdIn d (P.sz (src + 2)))
  wr out (P.sz (dst + 3)) (← rdIn d (P.sz (src + 3)))

/-- `(size_t)(a * n + b) * 4`, each step reduced to `size_t` (flip.c:43,44 and analogues). -/
def idx4 (P : Plat) (a n b : Nat) : Nat := P.sz (P.sz (P.sz (a * n) + b) * 4)

/-- The common body of the seven functions of flip.c and rotate.c (flip.c:20-53, 65-98,
106-138, 146-179; rotate.c:15-48, 55-89, 96-129): guards, `malloc`, and the loop nest over
`y`, `x`.  They are textually identical except for `dst_index`, which is the parameter
`dst y x`.  The `!data` test is the `none` case. -/
def remap (P : Plat) (width height : Nat) (data : Option (List UInt8))
    (dst : Nat → Nat → Nat) : HM (Option (Buf UInt8)) :=
  match data with
  | none => pure none
  | some d =>
    if width = 0 ∨ height = 0 then pure none
    else if width > P.szMax / height then pure none
    else
      let num_pixels := P.sz (width * height)
      if num_pixels > P.szMax / 4 then pure none
      else
        let img_length_byte := P.sz (num_pixels * 4)
        allocFill img_length_byte fun out =>
          forN height out fun y out => forN width out fun x out =>
            copy4 P d (idx4 P y width x) out (dst y x)

/-- flip.c:19-54 (`dst_index` at 44). -/
def fcv_flip_x (P : Plat) (width height : Nat) (data : Option (List UInt8)) :=
  remap P width height data fun y x => idx4 P y width (u32sub (u32sub width 1) x)

/-- flip.c:64-99 (`dst_index` at 89). -/
def fcv_flip_y (P : Plat) (width height : Nat) (data : Option (List UInt8)) :=
  remap P width height data fun y x => idx4 P (u32sub (u32sub height 1) y) width x

/-- flip.c:104-139 (`dst_index` at 129). -/
def fcv_transpose (P : Plat) (width height : Nat) (data : Option (List UInt8)) :=
  remap P width height data fun y x => idx4 P x height y

/-- flip.c:144-180 (`dst_index` at 169-170). -/
def fcv_transverse (P : Plat) (width height : Nat) (data : Option (List UInt8)) :=
  remap P width height data fun y x =>
    idx4 P (u32sub (u32sub width 1) x) height (u32sub (u32sub height 1) y)

/-- rotate.c:14-49 (`dst_index` at 39). -/
def fcv_rotate_90_cw (P : Plat) (width height : Nat) (data : Option (List UInt8)) :=
  remap P width height data fun y x => idx4 P x height (u32sub (u32sub height 1) y)

/-- rotate.c:54-90 (`dst_index` at 79-80). -/
def fcv_rotate_180 (P : Plat) (width height : Nat) (data : Option (List UInt8)) :=
  remap P width height data fun y x =>
    idx4 P (u32sub (u32sub height 1) y) width (u32sub (u32sub width 1) x)

/-- rotate.c:95-130 (`dst_index` at 120). -/
def fcv_rotate_270_cw (P : Plat) (width height : Nat) (data : Option (List UInt8)) :=
  remap P width height data fun y x => idx4 P (u32sub (u32sub width 1) x) height y

/-- crop.c:29-82.  The messages on stderr (54, 70) are not modelled. -/
def fcv_crop (P : Plat) (width height channels : Nat) (data : Option (List UInt8))
    (x y new_width new_height : Nat) : HM (Option (Buf UInt8)) :=
  match data with
  | none => pure none
  | some d =>
    if width = 0 ∨ height = 0 ∨ channels = 0 ∨ new_width = 0 ∨ new_height = 0 then pure none
    else if x > u32sub 4294967295 new_width ∨ y > u32sub 4294967295 new_height then pure none
    else if u32 (x + new_width) > width ∨ u32 (y + new_height) > height then pure none
    else if new_width > P.szMax / new_height then pure none
    else
      let num_pixels := P.sz (new_width * new_height)
      if num_pixels > P.szMax / channels then pure none
      else
        let alloc_size := P.sz (num_pixels * channels)
        allocFill alloc_size fun out =>
          let row_bytes := P.sz (new_width * channels)
          forN new_height out fun i out =>
            let src_index := P.sz (P.sz (P.sz (u32 (y + i) * width) + x) * channels)
            let dst_index := P.sz (i * row_bytes)
            memcpyIn out dst_index d src_index row_bytes

end FlatCV.Model
