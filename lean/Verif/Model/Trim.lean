/-
Model of `src/trim.c`.

`fcv_trim` and `fcv_trim_threshold` contain the same four loops; they differ only in how two
pixels are compared.  The loops are modelled once (`trimBox`), with the comparison of two channel
values as a parameter, and both line ranges are cited.
-/
import Verif.Model.Geometry
import Verif.Core.Float

namespace FlatCV.Model

/-- trim.c:17-25 and 36-52: compare the pixels at byte offsets `i` and `j`; `good` compares two
channel values. -/
def matchBy (good : UInt8 → UInt8 → Bool) (d : List UInt8) (channels i j : Nat) : CM Bool :=
  forBreak channels 0 true fun c _ => do
    let a ← rdIn d (i + c)
    let b ← rdIn d (j + c)
    pure (good a b, !good a b)

/-- trim.c:20, channel comparison of `pixels_match`. -/
def sameChannel (a b : UInt8) : Bool := a == b

/-- trim.c:43-47, channel comparison of `pixels_match_threshold`. -/
def closeChannel (tolerance a b : UInt8) : Bool :=
  let diff : Int := (a.toNat : Int) - b.toNat
  let diff := if diff < 0 then -diff else diff
  !decide (u8OfInt diff > tolerance)

/-- Byte offset `(y * w + x) * channels` in `uint32_t`, e.g. trim.c:87. -/
def trimIdx (w channels y x : Nat) : Nat := u32 (u32 (u32 (y * w) + x) * channels)

/-- trim.c:88-97 (and 112-120, 252-261, 276-284): is column `x`, rows `top … bottom-1`, like its
top pixel? -/
def colMatches (good : UInt8 → UInt8 → Bool) (d : List UInt8) (w channels x top bottom : Nat) :
    CM Bool :=
  forBreak (bottom - top) top true fun y _ => do
    let m ← matchBy good d channels (trimIdx w channels y x) (trimIdx w channels top x)
    pure (m, !m)

/-- trim.c:133-143 (and 156-166, 297-307, 320-330): is row `y`, columns `left … right-1`, like its
leftmost pixel? -/
def rowMatches (good : UInt8 → UInt8 → Bool) (d : List UInt8) (w channels y left right : Nat) :
    CM Bool :=
  forBreak (right - left) left true fun x _ => do
    let m ← matchBy good d channels (trimIdx w channels y x) (trimIdx w channels y left)
    pure (m, !m)

/-- trim.c:86-105 / 250-269. -/
def trimLeft (good : UInt8 → UInt8 → Bool) (d : List UInt8) (w h channels : Nat) : CM Nat :=
  whileFuel (w + 1) 0 fun left =>
    if left < w then do
      let can_trim ← colMatches good d w channels left 0 h
      if can_trim && decide (u32sub w left > 1) then pure (u32 (left + 1), false)
      else pure (left, true)
    else pure (left, true)

/-- trim.c:108-128 / 272-291. -/
def trimRight (good : UInt8 → UInt8 → Bool) (d : List UInt8) (w h channels left : Nat) : CM Nat :=
  whileFuel (w + 1) w fun right =>
    if left < right then do
      let can_trim ← colMatches good d w channels (u32sub right 1) 0 h
      if can_trim && decide (u32sub right left > 1) then pure (u32sub right 1, false)
      else pure (right, true)
    else pure (right, true)

/-- trim.c:131-150 / 294-313. -/
def trimTop (good : UInt8 → UInt8 → Bool) (d : List UInt8) (w h channels left right : Nat) :
    CM Nat :=
  whileFuel (h + 1) 0 fun top =>
    if top < h ∧ u32sub h top > 1 then do
      let can_trim ← rowMatches good d w channels top left right
      if can_trim then pure (u32 (top + 1), false) else pure (top, true)
    else pure (top, true)

/-- trim.c:153-172 / 316-335. -/
def trimBottom (good : UInt8 → UInt8 → Bool) (d : List UInt8) (w h channels left right top : Nat) :
    CM Nat :=
  whileFuel (h + 1) h fun bottom =>
    if top < bottom ∧ u32sub bottom top > 1 then do
      let can_trim ← rowMatches good d w channels (u32sub bottom 1) left right
      if can_trim then pure (u32sub bottom 1, false) else pure (bottom, true)
    else pure (bottom, true)

/-- The four loops: left, right, top, bottom. -/
def trimBox (good : UInt8 → UInt8 → Bool) (d : List UInt8) (w h channels : Nat) :
    CM (Nat × Nat × Nat × Nat) := do
  let left ← trimLeft good d w h channels
  let right ← trimRight good d w h channels left
  let top ← trimTop good d w h channels left right
  let bottom ← trimBottom good d w h channels left right top
  pure (left, right, top, bottom)

/-- trim.c:73-198 / 240-366.  Returns the result and the new `*width`, `*height`. -/
def trimWith (good : UInt8 → UInt8 → Bool) (P : Plat) (d : List UInt8) (width height : Int)
    (channels : Nat) : HM (Option (Buf UInt8) × Int × Int) :=
  let w := u32OfInt width
  let h := u32OfInt height
  if w > P.szMax / h ∨ P.sz (w * h) > P.szMax / channels then pure (none, width, height)
  else do
    let (left, right, top, bottom) ← use [] (trimBox good d w h channels)
    let new_width := u32sub right left
    let new_height := u32sub bottom top
    if left = 0 ∧ top = 0 ∧ right = w ∧ bottom = h then do
      let alloc_size := P.sz (P.sz (w * h) * channels)
      let r ← allocFill alloc_size fun out => memcpyIn out 0 d 0 alloc_size
      pure (r, width, height)
    else do
      let r ← fcv_crop P w h channels (some d) left top new_width new_height
      pure (r, i32OfU32 new_width, i32OfU32 new_height)

/-- trim.c:63-198.  `width`/`height` are the values pointed to; NULL pointers for them (69) are
not modelled. -/
def fcv_trim (P : Plat) (width height : Int) (channels : Nat) (data : Option (List UInt8)) :
    HM (Option (Buf UInt8) × Int × Int) :=
  match data with
  | none => pure (none, width, height)
  | some d =>
    if width ≤ 0 ∨ height ≤ 0 ∨ channels = 0 then pure (none, width, height)
    else trimWith sameChannel P d width height channels

/-- trim.c:228-234: clamp the percentage and convert it to a channel difference. -/
def trimTolerance (t : ℚ) : CM UInt8 := do
  let t := if t < 0 then 0 else t
  let t := if t > 100 then 100 else t
  let a ← f64 (t * 255)
  let b ← f64div a 100
  castU8 b

/-- trim.c:212-366. -/
def fcv_trim_threshold (P : Plat) (width height : Int) (channels : Nat)
    (data : Option (List UInt8)) (threshold_percent : Dbl) :
    HM (Option (Buf UInt8) × Int × Int) :=
  match data with
  | none => pure (none, width, height)
  | some d =>
    if width ≤ 0 ∨ height ≤ 0 ∨ channels = 0 then pure (none, width, height)
    else match threshold_percent with
      | .nan => pure (none, width, height)
      | .inf _ => pure (none, width, height)
      | .fin t => do
        let tolerance ← use [] (trimTolerance t)
        if tolerance = 0 then fcv_trim P width height channels (some d)
        else trimWith (closeChannel tolerance) P d width height channels

end FlatCV.Model
