/-
Model of `count_colors` (`src/corner_detection.c`).
-/
import Verif.Core.Mem

namespace FlatCV.Model

/-- corner_detection.c:61-79: the body for the pixel at byte `4*k` (`k`-th iteration of
`for (int32_t i = 0; …; i += 4)`); state `color_map`, `color_count`. -/
def countStep (d : List UInt8) (k : Nat) (s : Cells Int × Int) : CM (Cells Int × Int) := do
  let r ← rdIn d (4 * k)
  let g ← rdIn d (4 * k + 1)
  let b ← rdIn d (4 * k + 2)
  let a ← rdIn d (4 * k + 3)
  if a = 0 then pure s
  else do
    let key := (r.toNat <<< 16 ||| g.toNat <<< 8) ||| b.toNat
    let c ← rd s.1 key
    let count ← (if c = 0 then i32 (s.2 + 1) else pure s.2 : CM Int)
    let c' ← i32 (c + 1)
    let m ← wr s.1 key c'
    pure (m, count)

/-- corner_detection.c:49-83.  The assertions 50-52 make NULL or non-positive dimensions abort
(with assertions disabled a NULL image would be read).  The loop bound `width * height * 4` is an
`int`; the last `i += 4` reaches that bound and cannot overflow. -/
def count_colors (width height : Int) (image : Option (List UInt8)) : HM Int := do
  match image with
  | none => hfault .exit
  | some d =>
    if width ≤ 0 ∨ height ≤ 0 then hfault .exit
    else do
      match ← calloc 16777216 (0 : Int) with
      | none => pure (-1)
      | some map => do
        let r ← use [map.id] (do
          let a ← i32 (width * height)
          let bound ← i32 (a * 4)
          forN (bound.toNat / 4) (map.cells, 0) (countStep d))
        free map.id
        pure r.2

end FlatCV.Model
