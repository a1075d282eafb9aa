/-
Properties C01–C08 (and the parts of C09–C11 about these functions): flips, rotations,
crop.  `Yields f out` covers every heap and every pattern of allocation failures: the call
never faults, returns either NULL after a failed allocation (leaking nothing) or a fresh block
holding exactly `out`.
-/
import Verif.Lemmas.Geometry
import Verif.Spec.Call

namespace FlatCV.Props
open Model

variable {P : Plat} {w h ch : Nat} {d : List UInt8}

/-- C01 -/
theorem flip_x_correct (im : Img P w h 4 d) :
    Yields (fcv_flip_x P w h (some d)) (Spec.flipX w h d) := by
  intro hp
  obtain ⟨hw, hh, uw, uh, hd, hs⟩ := im
  unfold IsU32 at uw uh
  refine remap_returns P w h d hp hw hh hd (by omega) _ w h
    (fun x _ => w - 1 - x) (fun _ y => y) (fun x _ => w - 1 - x) (fun _ y => y) rfl ?_ ?_ ?_
  · intro x y hx hy
    refine ⟨by omega, hy, ?_⟩
    rw [u32sub_rev uw hx]
    exact idx4_eq P (by omega) hy (by omega)
  · intro x y hx hy; exact ⟨by omega, hy, by omega, rfl⟩
  · intro x y hx hy; exact ⟨by omega, rfl⟩

/-- C02 -/
theorem flip_y_correct (im : Img P w h 4 d) :
    Yields (fcv_flip_y P w h (some d)) (Spec.flipY w h d) := by
  intro hp
  obtain ⟨hw, hh, uw, uh, hd, hs⟩ := im
  unfold IsU32 at uw uh
  refine remap_returns P w h d hp hw hh hd (by omega) _ w h
    (fun x _ => x) (fun _ y => h - 1 - y) (fun x _ => x) (fun _ y => h - 1 - y) rfl ?_ ?_ ?_
  · intro x y hx hy
    refine ⟨hx, by omega, ?_⟩
    rw [u32sub_rev uh hy]
    exact idx4_eq (m := h) P (by omega) (by omega) (by omega)
  · intro x y hx hy; exact ⟨hx, by omega, rfl, by omega⟩
  · intro x y hx hy; exact ⟨rfl, by omega⟩

/-- C03, transpose -/
theorem transpose_correct (im : Img P w h 4 d) :
    Yields (fcv_transpose P w h (some d)) (Spec.transpose w h d) := by
  intro hp
  obtain ⟨hw, hh, uw, uh, hd, hs⟩ := im
  have hc : h * w = w * h := Nat.mul_comm _ _
  refine remap_returns P w h d hp hw hh hd (by omega) _ h w
    (fun _ y => y) (fun x _ => x) (fun _ y => y) (fun x _ => x) hc ?_ ?_ ?_
  · intro x y hx hy
    exact ⟨hy, hx, idx4_eq P hy hx (by omega)⟩
  · intro x y hx hy; exact ⟨hy, hx, rfl, rfl⟩
  · intro x y hx hy; exact ⟨rfl, rfl⟩

/-- C03, transverse -/
theorem transverse_correct (im : Img P w h 4 d) :
    Yields (fcv_transverse P w h (some d)) (Spec.transverse w h d) := by
  intro hp
  obtain ⟨hw, hh, uw, uh, hd, hs⟩ := im
  unfold IsU32 at uw uh
  have hc : h * w = w * h := Nat.mul_comm _ _
  refine remap_returns P w h d hp hw hh hd (by omega) _ h w
    (fun _ y => h - 1 - y) (fun x _ => w - 1 - x) (fun _ y => w - 1 - y) (fun x _ => h - 1 - x)
    hc ?_ ?_ ?_
  · intro x y hx hy
    refine ⟨by omega, by omega, ?_⟩
    rw [u32sub_rev uw hx,
      u32sub_rev uh hy]
    exact idx4_eq (m := w) P (by omega) (by omega) (by omega)
  · intro x y hx hy; exact ⟨by omega, by omega, by omega, by omega⟩
  · intro x y hx hy; exact ⟨by omega, by omega⟩

/-- C04, 90 degrees -/
theorem rotate_90_correct (im : Img P w h 4 d) :
    Yields (fcv_rotate_90_cw P w h (some d)) (Spec.rot90 w h d) := by
  intro hp
  obtain ⟨hw, hh, uw, uh, hd, hs⟩ := im
  unfold IsU32 at uw uh
  have hc : h * w = w * h := Nat.mul_comm _ _
  refine remap_returns P w h d hp hw hh hd (by omega) _ h w
    (fun _ y => h - 1 - y) (fun x _ => x) (fun _ y => y) (fun x _ => h - 1 - x) hc ?_ ?_ ?_
  · intro x y hx hy
    refine ⟨by omega, hx, ?_⟩
    rw [u32sub_rev uh hy]
    exact idx4_eq P (by omega) hx (by omega)
  · intro x y hx hy; exact ⟨hy, by omega, by omega, rfl⟩
  · intro x y hx hy; exact ⟨rfl, by omega⟩

/-- C04, 180 degrees -/
theorem rotate_180_correct (im : Img P w h 4 d) :
    Yields (fcv_rotate_180 P w h (some d)) (Spec.rot180 w h d) := by
  intro hp
  obtain ⟨hw, hh, uw, uh, hd, hs⟩ := im
  unfold IsU32 at uw uh
  refine remap_returns P w h d hp hw hh hd (by omega) _ w h
    (fun x _ => w - 1 - x) (fun _ y => h - 1 - y) (fun x _ => w - 1 - x) (fun _ y => h - 1 - y)
    rfl ?_ ?_ ?_
  · intro x y hx hy
    refine ⟨by omega, by omega, ?_⟩
    rw [u32sub_rev uw hx,
      u32sub_rev uh hy]
    exact idx4_eq (m := h) P (by omega) (by omega) (by omega)
  · intro x y hx hy; exact ⟨by omega, by omega, by omega, by omega⟩
  · intro x y hx hy; exact ⟨by omega, by omega⟩

/-- C04, 270 degrees -/
theorem rotate_270_correct (im : Img P w h 4 d) :
    Yields (fcv_rotate_270_cw P w h (some d)) (Spec.rot270 w h d) := by
  intro hp
  obtain ⟨hw, hh, uw, uh, hd, hs⟩ := im
  unfold IsU32 at uw uh
  have hc : h * w = w * h := Nat.mul_comm _ _
  refine remap_returns P w h d hp hw hh hd (by omega) _ h w
    (fun _ y => y) (fun x _ => w - 1 - x) (fun _ y => w - 1 - y) (fun x _ => x) hc ?_ ?_ ?_
  · intro x y hx hy
    refine ⟨hy, by omega, ?_⟩
    rw [u32sub_rev uw hx]
    exact idx4_eq (m := w) P (by omega) (by omega) (by omega)
  · intro x y hx hy; exact ⟨by omega, hx, rfl, by omega⟩
  · intro x y hx hy; exact ⟨by omega, rfl⟩

/-- The hypotheses of C01–C04 hold for a concrete 2 × 3 image. -/
example : Img .lp64 2 3 4 (List.replicate 24 7) :=
  ⟨by decide, by decide, by decide, by decide, by decide, by decide⟩

/-- Reading the result: pixel `(x, y)` of the flipped image is pixel `(w-1-x, y)`. -/
theorem flip_x_pixel (im : Img P w h 4 d) {hp hp' : Heap} {b : Buf UInt8}
    (e : fcv_flip_x P w h (some d) hp = .ok (some b, hp')) {x y c : Nat}
    (hx : x < w) (hy : y < h) (hc : c < 4) :
    b.cells.length = w * h * 4 ∧
    b.cells[(y * w + x) * 4 + c]? = some d[(y * w + (w - 1 - x)) * 4 + c]? := by
  have := (flip_x_correct im).result e
  rw [this]
  have hx' : w - 1 - x < w := by omega
  simp only [Spec.flipX, List.getElem?_map, mkImg_getElem? hx hy hc,
    getElem?_px im.len hx' hy hc, List.length_map, mkImg_length]
  simp

/-! ### C05: the symmetry group of the rectangle -/

private theorem swapImg (im : Img P w h 4 d) {e : List UInt8} (he : e.length = h * w * 4) :
    Img P h w 4 e :=
  ⟨im.h_pos, im.w_pos, im.h_u32, im.w_u32, he, by
    rw [he, Nat.mul_comm h w, ← im.len]; exact im.size⟩

private theorem sameImg (im : Img P w h 4 d) {e : List UInt8} (he : e.length = w * h * 4) :
    Img P w h 4 e :=
  ⟨im.w_pos, im.h_pos, im.w_u32, im.h_u32, he, by rw [he, ← im.len]; exact im.size⟩

/-- Flipping twice restores the image. -/
theorem flip_x_flip_x (im : Img P w h 4 d) :
    YieldsThen (fcv_flip_x P w h (some d)) (fun e => fcv_flip_x P w h (some e)) d := by
  refine (flip_x_correct im).andThen ?_
  have := flip_x_correct (sameImg im (e := Spec.flipX w h d) (mkImg_length ..))
  rw [show Spec.flipX w h (Spec.flipX w h d) = d from ?_] at this
  · exact this
  · refine img_ext (mkImg_length ..) im.len fun x y c hx hy hc => ?_
    unfold Spec.flipX
    rw [px_mkImg hx hy hc, px_mkImg (by omega) hy hc]
    congr 1; omega

theorem flip_y_flip_y (im : Img P w h 4 d) :
    YieldsThen (fcv_flip_y P w h (some d)) (fun e => fcv_flip_y P w h (some e)) d := by
  refine (flip_y_correct im).andThen ?_
  have := flip_y_correct (sameImg im (e := Spec.flipY w h d) (mkImg_length ..))
  rw [show Spec.flipY w h (Spec.flipY w h d) = d from ?_] at this
  · exact this
  · refine img_ext (mkImg_length ..) im.len fun x y c hx hy hc => ?_
    unfold Spec.flipY
    rw [px_mkImg hx hy hc, px_mkImg hx (by omega) hc]
    congr 1; omega

theorem rotate_180_rotate_180 (im : Img P w h 4 d) :
    YieldsThen (fcv_rotate_180 P w h (some d)) (fun e => fcv_rotate_180 P w h (some e)) d := by
  refine (rotate_180_correct im).andThen ?_
  have := rotate_180_correct (sameImg im (e := Spec.rot180 w h d) (mkImg_length ..))
  rw [show Spec.rot180 w h (Spec.rot180 w h d) = d from ?_] at this
  · exact this
  · refine img_ext (mkImg_length ..) im.len fun x y c hx hy hc => ?_
    unfold Spec.rot180
    rw [px_mkImg hx hy hc, px_mkImg (by omega) (by omega) hc]
    congr 1 <;> omega

theorem transpose_transpose (im : Img P w h 4 d) :
    YieldsThen (fcv_transpose P w h (some d)) (fun e => fcv_transpose P h w (some e)) d := by
  refine (transpose_correct im).andThen ?_
  have := transpose_correct (swapImg im (e := Spec.transpose w h d) (mkImg_length ..))
  rw [show Spec.transpose h w (Spec.transpose w h d) = d from ?_] at this
  · exact this
  · refine img_ext (mkImg_length ..) im.len fun x y c hx hy hc => ?_
    unfold Spec.transpose
    rw [px_mkImg hx hy hc, px_mkImg hy hx hc]

theorem transverse_transverse (im : Img P w h 4 d) :
    YieldsThen (fcv_transverse P w h (some d)) (fun e => fcv_transverse P h w (some e)) d := by
  refine (transverse_correct im).andThen ?_
  have := transverse_correct (swapImg im (e := Spec.transverse w h d) (mkImg_length ..))
  rw [show Spec.transverse h w (Spec.transverse w h d) = d from ?_] at this
  · exact this
  · refine img_ext (mkImg_length ..) im.len fun x y c hx hy hc => ?_
    unfold Spec.transverse
    rw [px_mkImg hx hy hc, px_mkImg (by omega) (by omega) hc]
    congr 1 <;> omega

/-- A quarter turn and three more restore the image … -/
theorem rotate_90_rotate_270 (im : Img P w h 4 d) :
    YieldsThen (fcv_rotate_90_cw P w h (some d)) (fun e => fcv_rotate_270_cw P h w (some e)) d := by
  refine (rotate_90_correct im).andThen ?_
  have := rotate_270_correct (swapImg im (e := Spec.rot90 w h d) (mkImg_length ..))
  rw [show Spec.rot270 h w (Spec.rot90 w h d) = d from ?_] at this
  · exact this
  · refine img_ext (mkImg_length ..) im.len fun x y c hx hy hc => ?_
    unfold Spec.rot270 Spec.rot90
    rw [px_mkImg hx hy hc, px_mkImg (by omega) (by omega) hc]
    congr 1; omega

theorem rotate_270_rotate_90 (im : Img P w h 4 d) :
    YieldsThen (fcv_rotate_270_cw P w h (some d)) (fun e => fcv_rotate_90_cw P h w (some e)) d := by
  refine (rotate_270_correct im).andThen ?_
  have := rotate_90_correct (swapImg im (e := Spec.rot270 w h d) (mkImg_length ..))
  rw [show Spec.rot90 h w (Spec.rot270 w h d) = d from ?_] at this
  · exact this
  · refine img_ext (mkImg_length ..) im.len fun x y c hx hy hc => ?_
    unfold Spec.rot270 Spec.rot90
    rw [px_mkImg hx hy hc, px_mkImg (by omega) (by omega) hc]
    congr 1; omega

/-- Two quarter turns are a half turn (so four restore the image, with the theorem above). -/
theorem rotate_90_twice (im : Img P w h 4 d) {e : List UInt8}
    (he : Yields (fcv_rotate_180 P w h (some d)) e) :
    YieldsThen (fcv_rotate_90_cw P w h (some d)) (fun e => fcv_rotate_90_cw P h w (some e)) e := by
  have e1 : e = Spec.rot180 w h d := by
    obtain ⟨b, _, e', hb⟩ := he.succeeds (hp := Heap.fresh) (fun _ => rfl)
    have := (rotate_180_correct im).result e'
    rw [hb] at this
    exact (List.map_inj_right (fun a b h => by simpa using h)).1 this
  subst e1
  refine (rotate_90_correct im).andThen ?_
  have := rotate_90_correct (swapImg im (e := Spec.rot90 w h d) (mkImg_length ..))
  rw [show Spec.rot90 h w (Spec.rot90 w h d) = Spec.rot180 w h d from ?_] at this
  · exact this
  · refine img_ext (w := w) (h := h) (mkImg_length ..) (mkImg_length ..) fun x y c hx hy hc => ?_
    unfold Spec.rot180 Spec.rot90
    rw [px_mkImg hx hy hc, px_mkImg hx hy hc, px_mkImg (by omega) (by omega) hc]

/-- Four quarter turns restore the image. -/
theorem rotate_90_four_times (im : Img P w h 4 d) :
    ∃ e1 e2 e3 : List UInt8,
      Yields (fcv_rotate_90_cw P w h (some d)) e1 ∧
      Yields (fcv_rotate_90_cw P h w (some e1)) e2 ∧
      Yields (fcv_rotate_90_cw P w h (some e2)) e3 ∧
      Yields (fcv_rotate_90_cw P h w (some e3)) d := by
  have i1 := swapImg im (e := Spec.rot90 w h d) (mkImg_length ..)
  have i2 := swapImg i1 (e := Spec.rot90 h w (Spec.rot90 w h d)) (mkImg_length ..)
  have i3 := swapImg i2 (e := Spec.rot90 w h (Spec.rot90 h w (Spec.rot90 w h d)))
    (mkImg_length ..)
  refine ⟨_, _, _, rotate_90_correct im, rotate_90_correct i1, rotate_90_correct i2, ?_⟩
  have := rotate_90_correct i3
  rw [show Spec.rot90 h w (Spec.rot90 w h (Spec.rot90 h w (Spec.rot90 w h d))) = d from ?_] at this
  · exact this
  · refine img_ext (w := w) (h := h) (mkImg_length ..) im.len fun x y c hx hy hc => ?_
    unfold Spec.rot90
    rw [px_mkImg hx hy hc, px_mkImg (by omega) (by omega) hc, px_mkImg (by omega) (by omega) hc,
      px_mkImg (by omega) (by omega) hc]
    congr 1 <;> omega

/-- Flipping in both axes is a half turn. -/
theorem flip_x_flip_y_eq_rotate_180 (im : Img P w h 4 d) :
    ∃ r, Yields (fcv_rotate_180 P w h (some d)) r ∧
      YieldsThen (fcv_flip_x P w h (some d)) (fun e => fcv_flip_y P w h (some e)) r ∧
      YieldsThen (fcv_flip_y P w h (some d)) (fun e => fcv_flip_x P w h (some e)) r := by
  refine ⟨_, rotate_180_correct im, (flip_x_correct im).andThen ?_,
    (flip_y_correct im).andThen ?_⟩
  · have := flip_y_correct (sameImg im (e := Spec.flipX w h d) (mkImg_length ..))
    rw [show Spec.flipY w h (Spec.flipX w h d) = Spec.rot180 w h d from ?_] at this
    · exact this
    · refine img_ext (w := w) (h := h) (mkImg_length ..) (mkImg_length ..)
        fun x y c hx hy hc => ?_
      unfold Spec.flipX Spec.flipY Spec.rot180
      rw [px_mkImg hx hy hc, px_mkImg hx hy hc, px_mkImg (by omega) (by omega) hc]
  · have := flip_x_correct (sameImg im (e := Spec.flipY w h d) (mkImg_length ..))
    rw [show Spec.flipX w h (Spec.flipY w h d) = Spec.rot180 w h d from ?_] at this
    · exact this
    · refine img_ext (w := w) (h := h) (mkImg_length ..) (mkImg_length ..)
        fun x y c hx hy hc => ?_
      unfold Spec.flipX Spec.flipY Spec.rot180
      rw [px_mkImg hx hy hc, px_mkImg hx hy hc, px_mkImg (by omega) (by omega) hc]

/-- Transposing and then mirroring is a quarter turn. -/
theorem transpose_flip_x_eq_rotate_90 (im : Img P w h 4 d) :
    ∃ r, Yields (fcv_rotate_90_cw P w h (some d)) r ∧
      YieldsThen (fcv_transpose P w h (some d)) (fun e => fcv_flip_x P h w (some e)) r := by
  refine ⟨_, rotate_90_correct im, (transpose_correct im).andThen ?_⟩
  have := flip_x_correct (swapImg im (e := Spec.transpose w h d) (mkImg_length ..))
  rw [show Spec.flipX h w (Spec.transpose w h d) = Spec.rot90 w h d from ?_] at this
  · exact this
  · refine img_ext (w := h) (h := w) (mkImg_length ..) (mkImg_length ..) fun x y c hx hy hc => ?_
    unfold Spec.flipX Spec.transpose Spec.rot90
    rw [px_mkImg hx hy hc, px_mkImg hx hy hc, px_mkImg (by omega) (by omega) hc]

/-- Transverse is transpose followed by a half turn. -/
theorem transpose_rotate_180_eq_transverse (im : Img P w h 4 d) :
    ∃ r, Yields (fcv_transverse P w h (some d)) r ∧
      YieldsThen (fcv_transpose P w h (some d)) (fun e => fcv_rotate_180 P h w (some e)) r := by
  refine ⟨_, transverse_correct im, (transpose_correct im).andThen ?_⟩
  have := rotate_180_correct (swapImg im (e := Spec.transpose w h d) (mkImg_length ..))
  rw [show Spec.rot180 h w (Spec.transpose w h d) = Spec.transverse w h d from ?_] at this
  · exact this
  · refine img_ext (w := h) (h := w) (mkImg_length ..) (mkImg_length ..) fun x y c hx hy hc => ?_
    unfold Spec.rot180 Spec.transpose Spec.transverse
    rw [px_mkImg hx hy hc, px_mkImg hx hy hc, px_mkImg (by omega) (by omega) hc]

/-! ### C06–C08: crop -/

/-- C06: a rectangle inside the image is returned exactly. -/
theorem crop_correct (im : Img P w h ch d) {x0 y0 nw nh : Nat} (hch : 0 < ch)
    (hnw : 0 < nw) (hnh : 0 < nh) (hx : x0 + nw ≤ w) (hy : y0 + nh ≤ h) :
    Yields (fcv_crop P w h ch (some d) x0 y0 nw nh) (Spec.crop w ch d x0 y0 nw nh) := by
  intro hp
  exact crop_returns_core P w h ch d x0 y0 nw nh hp im.w_u32 im.h_u32 hch hnw hnh hx hy im.len
    (by rw [← im.len]; exact im.size)

example : Img .lp64 3 2 3 (List.replicate 18 1) ∧ 1 + 2 ≤ 3 ∧ 0 + 1 ≤ 2 :=
  ⟨⟨by decide, by decide, by decide, by decide, by decide, by decide⟩, by decide, by decide⟩

/-- C07: everything else is rejected without touching the heap or the image: NULL data, a zero
size, and every rectangle reaching past the right or bottom edge, whatever the 32-bit values. -/
theorem crop_rejects {w h ch x0 y0 nw nh : Nat} {data : Option (List UInt8)} (hp : Heap)
    (unw : IsU32 nw) (unh : IsU32 nh)
    (hbad : data = none ∨ w = 0 ∨ h = 0 ∨ ch = 0 ∨ nw = 0 ∨ nh = 0 ∨
      w < x0 + nw ∨ h < y0 + nh) :
    Rejects (fcv_crop P w h ch data x0 y0 nw nh) hp := by
  unfold IsU32 at *
  unfold Rejects fcv_crop
  cases data with
  | none => rfl
  | some d =>
    have hbad' : w = 0 ∨ h = 0 ∨ ch = 0 ∨ nw = 0 ∨ nh = 0 ∨ w < x0 + nw ∨ h < y0 + nh := by
      simpa using hbad
    by_cases hz : w = 0 ∨ h = 0 ∨ ch = 0 ∨ nw = 0 ∨ nh = 0
    · simp only [hz, if_true]; rfl
    · simp only [hz, if_false]
      split
      · rfl
      · rename_i hg
        rw [u32sub_eq (by omega) (by omega), u32sub_eq (by omega) (by omega)] at hg
        rw [u32_eq (n := x0 + nw) (by omega), u32_eq (n := y0 + nh) (by omega)]
        have : x0 + nw > w ∨ y0 + nh > h := by omega
        simp only [this, if_true]; rfl

/-- A rectangle that only an overflowing bound check would accept: `x + new_width = 2^32`. -/
example : Rejects (fcv_crop .lp64 4 4 4 (some (List.replicate 64 0)) 4294967295 0 1 1)
    Heap.fresh :=
  crop_rejects _ (by decide) (by decide)
    (by right; right; right; right; right; right; left; decide)

/-- C08: cropping everything copies. -/
theorem crop_full (im : Img P w h ch d) (hch : 0 < ch) :
    Yields (fcv_crop P w h ch (some d) 0 0 w h) d := by
  have := crop_correct im hch im.w_pos im.h_pos (x0 := 0) (y0 := 0) (by omega) (by omega)
  rw [show Spec.crop w ch d 0 0 w h = d from ?_] at this
  · exact this
  · unfold Spec.crop
    simp only [Nat.zero_add]
    exact mkImg_px im.len

/-- C08: a crop of a crop is the crop at the summed offset. -/
theorem crop_crop (im : Img P w h ch d) (hch : 0 < ch) {x0 y0 nw nh x1 y1 mw mh : Nat}
    (hmw : 0 < mw) (hmh : 0 < mh) (hx : x0 + nw ≤ w) (hy : y0 + nh ≤ h)
    (hx1 : x1 + mw ≤ nw) (hy1 : y1 + mh ≤ nh) :
    ∃ r, Yields (fcv_crop P w h ch (some d) (x0 + x1) (y0 + y1) mw mh) r ∧
      YieldsThen (fcv_crop P w h ch (some d) x0 y0 nw nh)
        (fun e => fcv_crop P nw nh ch (some e) x1 y1 mw mh) r := by
  have uw := im.w_u32
  have uh := im.h_u32
  unfold IsU32 at uw uh
  refine ⟨_, crop_correct im hch hmw hmh (by omega) (by omega),
    (crop_correct im hch (by omega) (by omega) hx hy).andThen ?_⟩
  have hsub : nw * nh * ch ≤ w * h * ch :=
    Nat.mul_le_mul_right _ (Nat.mul_le_mul (by omega) (by omega))
  have im' : Img P nw nh ch (Spec.crop w ch d x0 y0 nw nh) :=
    ⟨by omega, by omega, by unfold IsU32; omega, by unfold IsU32; omega, mkImg_length ..,
      by have := im.size; have := im.len; unfold Spec.crop; rw [mkImg_length]; omega⟩
  have := crop_correct im' hch hmw hmh hx1 hy1
  rw [show Spec.crop nw ch (Spec.crop w ch d x0 y0 nw nh) x1 y1 mw mh
    = Spec.crop w ch d (x0 + x1) (y0 + y1) mw mh from ?_] at this
  · exact this
  · refine img_ext (w := mw) (h := mh) (mkImg_length ..) (mkImg_length ..)
      fun x y c hx hy hc => ?_
    unfold Spec.crop
    rw [px_mkImg hx hy hc, px_mkImg hx hy hc, px_mkImg (by omega) (by omega) hc]
    congr 1 <;> omega

/-! ### C09: rejected arguments -/

/-- C09 for the seven functions of flip.c and rotate.c: NULL data, a zero dimension, or a byte
size beyond `SIZE_MAX` is rejected without any effect. -/
theorem flips_reject {data : Option (List UInt8)} (hp : Heap)
    (hbad : data = none ∨ w = 0 ∨ h = 0 ∨ P.szMax < w * h * 4) :
    Rejects (fcv_flip_x P w h data) hp ∧ Rejects (fcv_flip_y P w h data) hp ∧
    Rejects (fcv_transpose P w h data) hp ∧ Rejects (fcv_transverse P w h data) hp ∧
    Rejects (fcv_rotate_90_cw P w h data) hp ∧ Rejects (fcv_rotate_180 P w h data) hp ∧
    Rejects (fcv_rotate_270_cw P w h data) hp :=
  ⟨remap_rejects P w h data hp _ hbad, remap_rejects P w h data hp _ hbad,
    remap_rejects P w h data hp _ hbad, remap_rejects P w h data hp _ hbad,
    remap_rejects P w h data hp _ hbad, remap_rejects P w h data hp _ hbad,
    remap_rejects P w h data hp _ hbad⟩

end FlatCV.Props
