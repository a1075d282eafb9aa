/-
Model of `fcv_bw_smart` (`src/conversion.c:513-594`).
-/
import Verif.Model.Blur
import Verif.Model.Otsu

namespace FlatCV.Model

/-- The double nearest to 0.1. -/
def tenth : ℚ := 3602879701896397 / 36028797018963968

/-- conversion.c:530: `sqrt((double)width * (double)height) * 0.1`. -/
def bwRadius (width height : Nat) : CM ℚ := do
  let p ← f64 (width * height)
  let s ← f64sqrt p
  f64 (s * tenth)

/-- conversion.c:565-574: `127 + gray - blurred`, clamped. -/
def highFreqVal (g b : UInt8) : UInt8 :=
  let v : Int := 127 + g.toNat - b.toNat
  if v < 0 then u8OfInt 0 else if v > 255 then u8OfInt 255 else u8OfInt v

/-- conversion.c:562-580.  The counter is a `uint32_t`, the bound a `size_t`. -/
def highFreq (n : Nat) (gray : List UInt8) (blurred high : Cells UInt8) : CM (Cells UInt8) :=
  forU32 n high fun i high => do
    let k := u32 (i * 4)
    let g ← rdIn gray k
    let b ← rd blurred k
    let v := highFreqVal g b
    let high ← wr high k v
    let high ← wr high (u32 (k + 1)) v
    let high ← wr high (u32 (k + 2)) v
    wr high (u32 (k + 3)) 255

/-- conversion.c:513-594.  Passing the gray image on requires it to be initialised (`asInput`),
which is stricter than the code for images of more than `2^30` pixels. -/
def fcv_bw_smart (P : Plat) (ex : ℚ → ℚ) (width height : Nat) (use_double : Bool)
    (data : Option (List UInt8)) : HM (Option (Buf UInt8)) :=
  match data with
  | none => pure none
  | some d =>
    if width = 0 ∨ height = 0 then pure none
    else do
      match ← fcv_grayscale P width height (some d) with
      | none => pure none
      | some gray => do
        let radius ← use [] (bwRadius width height)
        let g ← use [gray.id] (asInput gray.cells)
        match ← fcv_apply_gaussian_blur P ex width height (.fin radius) (some g) with
        | none => do
          free gray.id
          pure none
        | some blurred => do
          if width > P.szMax / height then do
            free gray.id
            free blurred.id
            pure none
          else
            let img_length_px := P.sz (width * height)
            if img_length_px > P.szMax / 4 then do
              free gray.id
              free blurred.id
              pure none
            else do
              match ← malloc UInt8 (P.sz (img_length_px * 4)) with
              | none => do
                free gray.id
                free blurred.id
                pure none
              | some high => do
                let c ← use [gray.id, blurred.id, high.id]
                  (highFreq img_length_px g blurred.cells high.cells)
                free gray.id
                free blurred.id
                let hin ← use [high.id] (asInput c)
                let r ← fcv_otsu_threshold_rgba P width height use_double (some hin)
                free high.id
                pure r

end FlatCV.Model
