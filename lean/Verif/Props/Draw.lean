/-
Properties C28–C32 and C70 (and the parts of C09–C11 about these functions): drawing circles,
disks and borders.
-/
import Verif.Lemmas.Border
import Verif.Props.Geometry

namespace FlatCV.Props
open Model Spec

variable {P : Plat} {w h ch : Nat} {d : List UInt8}

/-! ### C70: the gray level of a colour -/

/-- C70: computing the gray level never faults; it is the luma up to rounding, black is 0, white
is 255, and more red, green or blue never makes it darker. -/
theorem draw_luma_correct :
    (∀ r g b, ∃ L, drawLuma r g b = .ok L ∧ IsLuma r g b L) ∧
    drawLuma 0 0 0 = .ok 0 ∧ drawLuma 255 255 255 = .ok 255 ∧
    (∀ r g b r' g' b' L L', r ≤ r' → g ≤ g' → b ≤ b' → drawLuma r g b = .ok L →
      drawLuma r' g' b' = .ok L' → L ≤ L') := by
  refine ⟨fun r g b => ⟨_, drawLuma_eq r g b, lumaOf_isLuma r g b⟩, ?_, ?_, ?_⟩
  · rw [drawLuma_eq]
    have h := lumaOf_isLuma 0 0 0
    refine congrArg Except.ok (UInt8.toNat_inj.1 ?_)
    have e : (0 : UInt8).toNat = 0 := rfl
    simp only [IsLuma, e] at h
    omega
  · rw [drawLuma_eq]
    refine congrArg Except.ok (UInt8.toNat_inj.1 ?_)
    have e := lumaOf_toNat 255 255 255
    have e' : (255 : UInt8).toNat = 255 := rfl
    rw [e', lumaQ_white] at e
    have : ⌊(255 : ℚ)⌋ = 255 := by norm_num
    rw [this] at e
    omega
  · intro r g b r' g' b' L L' h1 h2 h3 e e'
    rw [drawLuma_eq] at e e'
    cases e; cases e'
    rw [UInt8.le_iff_toNat_le]
    have a := lumaOf_toNat r g b
    have b' := lumaOf_toNat r' g' b'
    have := Int.floor_mono (lumaQ_mono (UInt8.le_iff_toNat_le.1 h1) (UInt8.le_iff_toNat_le.1 h2)
      (UInt8.le_iff_toNat_le.1 h3))
    omega

/-! ### C28–C30: circles and disks -/

/-- What a shape-drawing function does: it paints, around the (truncated) centre, a set of offsets
that depends on the (truncated) radius only. -/
def Draws (f : Plat → Nat → Nat → Nat → Option (List Char) → Dbl → Dbl → Dbl → List UInt8 →
    CM (List UInt8)) (O : Int → Int → Int → Prop) : Prop :=
  ∀ (P : Plat) (w h ch : Nat) (d : List UInt8) (hex : List Char) (r g b : UInt8) (ρ cx cy : ℚ),
    Img P w h ch d → w < 2 ^ 31 → h < 2 ^ 31 → 0 < ch → fcv_parse_hex_color hex = (r, g, b) →
    0 ≤ ρ → ρ ≤ 5 * 10 ^ 8 → |cx| ≤ 10 ^ 9 → |cy| ≤ 10 ^ 9 →
    ∃ L, IsLuma r g b L ∧
      f P w h ch (some hex) (.fin ρ) (.fin cx) (.fin cy) d = .ok (painted w h ch r g b L
        (fun x y => O (trunc ρ) (x - trunc cx) (y - trunc cy)) d)

theorem circle_draws : Draws fcv_draw_circle CircleOff := by
  intro P w h ch d hex r g b ρ cx cy im hw hh hch hc h0 h1 hcx hcy
  refine ⟨lumaOf r g b, lumaOf_isLuma r g b, ?_⟩
  have tcx := trunc_abs_le (q := cx) (n := 1000000000) (by push_cast; linarith)
  have tcy := trunc_abs_le (q := cy) (n := 1000000000) (by push_cast; linarith)
  have tr := trunc_abs_le (q := ρ) (n := 500000000) (by rw [abs_of_nonneg h0]; push_cast; linarith)
  have tr0 := trunc_nn h0
  rw [abs_of_nonneg tr0] at tr
  unfold fcv_draw_circle
  rw [drawShape_eq im.w_pos im.h_pos hch h0 (by linarith) (by linarith) (by linarith), hc]
  have hR := painter_of (P := P) hw hh im.len im.size (r, g, b)
  have := circle_bres_ok hR tr0 tr tcx tcy (fun _ _ => False)
  simp only [false_or] at this
  rw [painted_empty im.len] at this
  exact this

theorem disk_draws : Draws fcv_draw_disk DiskOff := by
  intro P w h ch d hex r g b ρ cx cy im hw hh hch hc h0 h1 hcx hcy
  refine ⟨lumaOf r g b, lumaOf_isLuma r g b, ?_⟩
  have tcx := trunc_abs_le (q := cx) (n := 1000000000) (by push_cast; linarith)
  have tcy := trunc_abs_le (q := cy) (n := 1000000000) (by push_cast; linarith)
  have tr := trunc_abs_le (q := ρ) (n := 500000000) (by rw [abs_of_nonneg h0]; push_cast; linarith)
  have tr0 := trunc_nn h0
  rw [abs_of_nonneg tr0] at tr
  unfold fcv_draw_disk
  rw [drawShape_eq im.w_pos im.h_pos hch h0 (by linarith) (by linarith) (by linarith), hc]
  have hR := painter_of (P := P) hw hh im.len im.size (r, g, b)
  have := disk_bres_ok hR tr0 tr tcx tcy (fun _ _ => False)
  simp only [false_or] at this
  rw [painted_empty im.len] at this
  exact this

/-- C28 (for radii up to 5·10^8 and centres up to 10^9 in size): drawing never faults, whatever
the position of the shape, and the image keeps its size. -/
theorem draw_safe_partial (im : Img P w h ch d) (hch : 0 < ch) (hex : List Char) {ρ cx cy : ℚ}
    (h0 : 0 ≤ ρ) (h1 : ρ ≤ 5 * 10 ^ 8) (hcx : |cx| ≤ 10 ^ 9) (hcy : |cy| ≤ 10 ^ 9) :
    Ok (fcv_draw_circle P w h ch (some hex) (.fin ρ) (.fin cx) (.fin cy) d)
      (fun e => e.length = d.length) ∧
    Ok (fcv_draw_disk P w h ch (some hex) (.fin ρ) (.fin cx) (.fin cy) d)
      (fun e => e.length = d.length) := by
  rcases hcol : fcv_parse_hex_color hex with ⟨r, g, b⟩
  have uw := im.w_u32
  have uh := im.h_u32
  by_cases hwh : w < 2147483648 ∧ h < 2147483648
  · obtain ⟨L, _, e⟩ := circle_draws P w h ch d hex r g b ρ cx cy im hwh.1 hwh.2 hch hcol h0 h1
      hcx hcy
    obtain ⟨L', _, e'⟩ := disk_draws P w h ch d hex r g b ρ cx cy im hwh.1 hwh.2 hch hcol h0 h1
      hcx hcy
    rw [e, e']
    exact ⟨Ok.pure (by rw [painted_length, im.len]), Ok.pure (by rw [painted_length, im.len])⟩
  · have hR := painter_wide (P := P) (ch := ch) (d := d) uw uh (by omega) (r, g, b)
    have tcx := trunc_abs_le (q := cx) (n := 1000000000) (by push_cast; linarith)
    have tcy := trunc_abs_le (q := cy) (n := 1000000000) (by push_cast; linarith)
    have tr := trunc_abs_le (q := ρ) (n := 500000000) (by
      rw [abs_of_nonneg h0]; push_cast; linarith)
    have tr0 := trunc_nn h0
    rw [abs_of_nonneg tr0] at tr
    unfold fcv_draw_circle fcv_draw_disk
    rw [drawShape_eq im.w_pos im.h_pos hch h0 (by linarith) (by linarith) (by linarith),
      drawShape_eq im.w_pos im.h_pos hch h0 (by linarith) (by linarith) (by linarith), hcol]
    have c1 := circle_bres_ok hR tr0 tr tcx tcy (fun _ _ => False)
    have c2 := disk_bres_ok hR tr0 tr tcx tcy (fun _ _ => False)
    rw [c1, c2]
    exact ⟨Ok.pure rfl, Ok.pure rfl⟩

/-- C28/C09: what is rejected is left alone: NULL colour, empty images, negative, non-finite or
huge radii, non-finite centres. -/
theorem draw_rejects (hex : Option (List Char)) (radius cx cy : Dbl)
    (hbad : hex = none ∨ w = 0 ∨ h = 0 ∨ ch = 0 ∨ (∀ q, radius ≠ .fin q) ∨ (∀ q, cx ≠ .fin q) ∨
      (∀ q, cy ≠ .fin q) ∨ ∃ q, radius = .fin q ∧ (q < 0 ∨ 1073741823 < q)) :
    fcv_draw_circle P w h ch hex radius cx cy d = .ok d ∧
    fcv_draw_disk P w h ch hex radius cx cy d = .ok d := by
  have key : ∀ stamp, drawShape w h ch hex radius cx cy stamp d = .ok d := by
    intro stamp
    unfold drawShape
    cases hex with
    | none => rfl
    | some hx =>
      simp only
      by_cases hz : w = 0 ∨ h = 0 ∨ ch = 0
      · rw [if_pos hz]; rfl
      rw [if_neg hz]
      cases radius with
      | nan => rfl
      | inf _ => rfl
      | fin ρ =>
        cases cx with
        | nan => rfl
        | inf _ => rfl
        | fin cx =>
          cases cy with
          | nan => rfl
          | inf _ => rfl
          | fin cy =>
            simp only
            rcases hbad with h | h | h | h | h | h | h | ⟨q, h, hq⟩
            · cases h
            · exact absurd (Or.inl h) hz
            · exact absurd (Or.inr (Or.inl h)) hz
            · exact absurd (Or.inr (Or.inr h)) hz
            · exact absurd rfl (h _)
            · exact absurd rfl (h _)
            · exact absurd rfl (h _)
            · cases h
              rcases hq with hq | hq
              · rw [if_pos hq]; rfl
              · rw [if_neg (by linarith), if_pos hq]; rfl
  exact ⟨key _, key _⟩

/-- C28 as stated: no undefined behaviour for any finite centre and any radius up to the limit the
functions enforce. -/
def DrawSafe : Prop :=
  ∀ (P : Plat) (w h ch : Nat) (d : List UInt8) (hex : List Char) (ρ cx cy : ℚ),
    Img P w h ch d → 0 < ch → 0 ≤ ρ → ρ ≤ 1073741823 → Fmt.b64.Rep ρ → Fmt.b64.Rep cx →
    Fmt.b64.Rep cy →
    Ok (fcv_draw_disk P w h ch (some hex) (.fin ρ) (.fin cx) (.fin cy) d) (fun _ => True)

theorem rep_int {m : ℤ} (hm : |m| ≤ 9007199254740992) : Fmt.b64.Rep (m : ℚ) := by
  have h := f64_ok (x := (m : ℚ)) (by
    have : |(m : ℚ)| ≤ 9007199254740992 := by exact_mod_cast hm
    exact this.trans (by norm_num))
  rw [rnd64_int hm] at h
  exact fl_rep _ h

theorem img1 : Img .lp64 1 1 1 [0] :=
  ⟨by decide, by decide, by decide, by decide, by decide, by decide⟩

/-- C28 is false: a centre beyond the range of `int32_t` is converted to `int32_t`. -/
theorem not_drawSafe : ¬ DrawSafe := by
  intro H
  have := H .lp64 1 1 1 [0] "FF0000".toList 1 ((3000000000 : ℤ) : ℚ) ((0 : ℤ) : ℚ) img1 (by decide)
    (by norm_num) (by norm_num) (by exact_mod_cast rep_int (m := 1) (by norm_num))
    (rep_int (by norm_num)) (rep_int (by norm_num))
  obtain ⟨r, h, _⟩ := this
  unfold fcv_draw_disk drawShape at h
  simp only at h
  have t1 : castI32 1 = .ok 1 := by
    have := castI32_ok (q := 1) (by norm_num)
    rw [this]
    have := trunc_int 1
    push_cast at this
    rw [this]
  have t2 : castI32 ((3000000000 : ℤ) : ℚ) = .error .castRange := by
    unfold castI32 castInt
    rw [trunc_int, if_neg (by norm_num)]
  rw [if_neg (by decide), if_neg (by norm_num), if_neg (by norm_num), t1, t2] at h
  cases h

/-- C28 is also false at the limit the functions enforce "to prevent integer overflow": whatever
the image and the centre, for every radius from 536912000 to 1073741823 the algorithm overflows
(or the conversion of the centre is undefined), so no call completes. -/
theorem draw_large_radius_faults (hex : List Char) (hw : 0 < w) (hh : 0 < h) (hch : 0 < ch)
    {ρ cx cy : ℚ} (h1 : 536912000 ≤ ρ) (h2 : ρ ≤ 1073741823) (out : List UInt8) :
    fcv_draw_circle P w h ch (some hex) (.fin ρ) (.fin cx) (.fin cy) d ≠ .ok out ∧
    fcv_draw_disk P w h ch (some hex) (.fin ρ) (.fin cx) (.fin cy) d ≠ .ok out := by
  have h0 : 0 ≤ ρ := by linarith
  have t1 : 536912000 ≤ trunc ρ := by
    rw [trunc_nonneg h0, Int.le_floor]; exact_mod_cast h1
  have t2 : trunc ρ ≤ 1073741823 := by
    have := trunc_abs_le (q := ρ) (n := 1073741823) (by rw [abs_of_nonneg h0]; exact_mod_cast h2)
    exact (le_abs_self _).trans this
  have key : ∀ stamp, drawShape w h ch (some hex) (.fin ρ) (.fin cx) (.fin cy) stamp d
      ≠ .ok out := by
    intro stamp
    unfold drawShape
    simp only
    rw [if_neg (by omega), if_neg (by linarith), if_neg (by linarith),
      castI32_ok (q := ρ) (by rw [abs_of_nonneg h0]; linarith)]
    simp only [ok_bind]
    cases castI32 cx with
    | error e => intro h; cases h
    | ok x =>
      cases castI32 cy with
      | error e => intro h; cases h
      | ok y => exact bresenham_large t1 t2 _ _ _
  exact ⟨key _, key _⟩

/-- What C29 says about one call with result `e`: every changed byte belongs to a pixel near the
shape, and holds the requested colour. -/
def OnlyNear (w h ch : Nat) (d e : List UInt8) (r g b : UInt8) (R cx cy : Int) : Prop :=
  e.length = d.length ∧ ∃ L, IsLuma r g b L ∧ ∀ x y c, x < w → y < h → c < ch →
    px w ch e x y c ≠ px w ch d x y c →
    px w ch e x y c = paintByte ch r g b L c (px w ch d x y c) ∧
    |(x : Int) - cx| ≤ max R 1 ∧ |(y : Int) - cy| ≤ max R 1 ∧
    (1 ≤ R → ((x : Int) - cx) ^ 2 + ((y : Int) - cy) ^ 2 ≤ (R + 1) ^ 2)

theorem onlyNear_of {O : Int → Int → Int → Prop} {r g b L : UInt8} {R cx cy : Int} (hR : 0 ≤ R)
    (im : Img P w h ch d) (hL : IsLuma r g b L)
    (hbox : ∀ r dx dy, 0 ≤ r → O r dx dy → |dx| ≤ max r 1 ∧ |dy| ≤ max r 1)
    (hring : ∀ r dx dy, 1 ≤ r → O r dx dy → dx * dx + dy * dy ≤ r * r + r + 1) :
    OnlyNear w h ch d (painted w h ch r g b L (fun x y => O R (x - cx) (y - cy)) d) r g b R cx cy := by
  refine ⟨by rw [painted_length, im.len], L, hL, fun x y c hx hy hc hne => ?_⟩
  by_cases hS : O R (x - cx) (y - cy)
  · refine ⟨px_painted (S := fun x y => O R (x - cx) (y - cy)) hx hy hc hS,
      (hbox _ _ _ hR hS).1, (hbox _ _ _ hR hS).2, fun h1 => ?_⟩
    have := hring _ _ _ h1 hS
    nlinarith
  · exact absurd (px_painted_not (S := fun x y => O R (x - cx) (y - cy)) hx hy hc hS) hne

/-- C29 for circles: changed bytes lie in the square of side `2·max(R,1)+1` around the centre and
(for radius at least 1) at distance at most `R+1`, and get the requested colour. -/
theorem circle_only_near (im : Img P w h ch d) (hw : w < 2 ^ 31) (hh : h < 2 ^ 31) (hch : 0 < ch)
    {hex : List Char} {r g b : UInt8} (hcol : fcv_parse_hex_color hex = (r, g, b)) {ρ cx cy : ℚ}
    (h0 : 0 ≤ ρ) (h1 : ρ ≤ 5 * 10 ^ 8) (hcx : |cx| ≤ 10 ^ 9) (hcy : |cy| ≤ 10 ^ 9) :
    Ok (fcv_draw_circle P w h ch (some hex) (.fin ρ) (.fin cx) (.fin cy) d)
      (fun e => OnlyNear w h ch d e r g b (trunc ρ) (trunc cx) (trunc cy)) := by
  obtain ⟨L, hL, e⟩ := circle_draws P w h ch d hex r g b ρ cx cy im hw hh hch hcol h0 h1 hcx hcy
  rw [e]
  exact Ok.pure (onlyNear_of (trunc_nn h0) im hL (fun _ _ _ h => CircleOff.box h)
    (fun _ _ _ h => CircleOff.ring h))

/-- C29 for disks. -/
theorem disk_only_near (im : Img P w h ch d) (hw : w < 2 ^ 31) (hh : h < 2 ^ 31) (hch : 0 < ch)
    {hex : List Char} {r g b : UInt8} (hcol : fcv_parse_hex_color hex = (r, g, b)) {ρ cx cy : ℚ}
    (h0 : 0 ≤ ρ) (h1 : ρ ≤ 5 * 10 ^ 8) (hcx : |cx| ≤ 10 ^ 9) (hcy : |cy| ≤ 10 ^ 9) :
    Ok (fcv_draw_disk P w h ch (some hex) (.fin ρ) (.fin cx) (.fin cy) d)
      (fun e => OnlyNear w h ch d e r g b (trunc ρ) (trunc cx) (trunc cy)) := by
  obtain ⟨L, hL, e⟩ := disk_draws P w h ch d hex r g b ρ cx cy im hw hh hch hcol h0 h1 hcx hcy
  rw [e]
  exact Ok.pure (onlyNear_of (trunc_nn h0) im hL (fun _ _ _ h => DiskOff.box h)
    (fun _ _ _ h => DiskOff.ring h))

/-- C30: for every radius `R` there is one set of offsets, symmetric in both axes, containing the
centre, the whole horizontal diameter, everything within distance `R-2` and nothing
beyond distance `R+1`, that `fcv_draw_disk` paints around the centre, wherever the centre is and
whatever the image. -/
theorem disk_shape : ∃ O : Int → Int → Int → Prop, Draws fcv_draw_disk O ∧ ∀ R, 0 ≤ R →
    O R 0 0 ∧ (∀ k, -R ≤ k → k ≤ R → O R k 0) ∧
    (∀ dx dy, O R dx dy → O R (-dx) dy ∧ O R dx (-dy)) ∧
    (2 ≤ R → ∀ dx dy, dx ^ 2 + dy ^ 2 ≤ (R - 2) ^ 2 → O R dx dy) ∧
    (1 ≤ R → ∀ dx dy, O R dx dy → dx ^ 2 + dy ^ 2 ≤ (R + 1) ^ 2) := by
  refine ⟨DiskOff, disk_draws, fun R hR => ⟨DiskOff.row 0 (by omega) (by omega),
    fun k h1 h2 => DiskOff.row k h1 h2, fun dx dy h => h.symm, fun h2 dx dy h => ?_,
    fun h1 dx dy h => ?_⟩⟩
  · exact DiskOff.covers h2 (by linarith [pow_two dx, pow_two dy, pow_two (R - 2)])
  · have := h.ring h1
    nlinarith

/-- C30 (circle): the offsets of the circle are symmetric in both axes and the diagonal, contain
the four poles, and lie between the distances `R-2` and `R+1`. -/
theorem circle_shape : ∃ O : Int → Int → Int → Prop, Draws fcv_draw_circle O ∧ ∀ R, 0 ≤ R →
    O R 0 R ∧ O R R 0 ∧
    (∀ dx dy, O R dx dy → O R (-dx) dy ∧ O R dx (-dy) ∧ O R dy dx) ∧
    (2 ≤ R → ∀ dx dy, O R dx dy → (R - 2) ^ 2 ≤ dx ^ 2 + dy ^ 2) ∧
    (1 ≤ R → ∀ dx dy, O R dx dy → dx ^ 2 + dy ^ 2 ≤ (R + 1) ^ 2) := by
  refine ⟨CircleOff, circle_draws, fun R hR => ⟨(CircleOff.poles R).1, (CircleOff.poles R).2.2.1,
    fun dx dy h => h.symm, fun h2 dx dy h => ?_, fun h1 dx dy h => ?_⟩⟩
  · have := h.ring_lower h2
    nlinarith
  · have := h.ring h1
    nlinarith

/-- The hypotheses of the drawing theorems are satisfiable. -/
example : Img .lp64 4 3 4 (List.replicate 48 7) ∧
    fcv_parse_hex_color "#12aBfF".toList = (0x12, 0xab, 0xff) :=
  ⟨⟨by decide, by decide, by decide, by decide, by decide, by decide⟩, by rfl⟩

/-! ### C31, C32: borders -/

/-- `fcv_add_border` on heap `hp` stores the dimensions `ow × oh` and returns NULL because the
allocation failed, or a fresh block with contents in `Q`. -/
def BorderReturns (m : HM (Option (Buf UInt8) × Option (Nat × Nat))) (hp : Heap) (ow oh : Nat)
    (Q : Cells UInt8 → Prop) : Prop :=
  HOk m hp fun r h' => r.2 = some (ow, oh) ∧ match r.1 with
    | none => OutOfMemory hp h'
    | some b => FreshResult hp h' b ∧ Q b.cells

/-- C31: the result is the input framed by `b` pixels of the
requested colour, and the stored dimensions are `w+2b` and `h+2b`. -/
theorem add_border_correct (im : Img P w h ch d) (hch : ch = 1 ∨ ch = 3 ∨ ch = 4) {b : Nat}
    (hb : 0 < b) {hex : List Char} {r g bl : UInt8} (hcol : fcv_parse_hex_color hex = (r, g, bl))
    (hs : (w + 2 * b) * (h + 2 * b) * ch ≤ 2 ^ 32) (hsz : (w + 2 * b) * (h + 2 * b) * ch ≤ P.szMax) :
    ∃ L, IsLuma r g bl L ∧ ∀ hp, BorderReturns
      (fcv_add_border P w h ch (some hex) b (some d)) hp (w + 2 * b) (h + 2 * b)
      (fun c => c = (bordered w h ch r g bl L b d).map some) := by
  refine ⟨lumaOf r g bl, lumaOf_isLuma r g bl, fun hp => ?_⟩
  have hw := im.w_pos
  have hh := im.h_pos
  have hch0 : 0 < ch := by omega
  have g1 : (w + 2 * b) * 3 ≤ (w + 2 * b) * (h + 2 * b) := Nat.mul_le_mul_left _ (by omega)
  have g2 : 3 * (h + 2 * b) ≤ (w + 2 * b) * (h + 2 * b) := Nat.mul_le_mul_right _ (by omega)
  have g3 : (w + 2 * b) * (h + 2 * b) ≤ (w + 2 * b) * (h + 2 * b) * ch :=
    Nat.le_mul_of_pos_right _ hch0
  rw [add_border_eq hw hh hch0 hb hex (by omega) (by omega) hsz, hcol]
  refine HOk.bind (allocFill_returns (Q := fun c =>
    c = (bordered w h ch r g bl (lumaOf r g bl) b d).map some) hp (Ok.of_eq
    (borderFill_ok hch (r, g, bl) hw im.len hs) rfl)) ?_
  rintro q h' hq
  refine HOk.pure ⟨rfl, ?_⟩
  cases q with
  | none => exact hq
  | some b => exact hq

/-- Cropping the interior of a bordered image returns the input. -/
theorem crop_bordered (im : Img P w h ch d) (hch : 0 < ch) {b : Nat} (r g bl L : UInt8)
    (uw : IsU32 (w + 2 * b)) (uh : IsU32 (h + 2 * b))
    (hsz : (w + 2 * b) * (h + 2 * b) * ch ≤ P.szMax) :
    Yields (fcv_crop P (w + 2 * b) (h + 2 * b) ch (some (bordered w h ch r g bl L b d)) b b w h)
      d := by
  have hw := im.w_pos
  have hh := im.h_pos
  have im' : Img P (w + 2 * b) (h + 2 * b) ch (bordered w h ch r g bl L b d) :=
    ⟨by omega, by omega, uw, uh, mkImg_length .., by unfold bordered; rw [mkImg_length]; exact hsz⟩
  have := crop_correct im' hch hw hh (x0 := b) (y0 := b) (by omega) (by omega)
  rw [show Spec.crop (w + 2 * b) ch (bordered w h ch r g bl L b d) b b w h = d from ?_] at this
  · exact this
  · refine img_ext (mkImg_length ..) im.len fun x y c hx hy hc => ?_
    unfold Spec.crop bordered
    rw [px_mkImg hx hy hc, px_mkImg (by omega) (by omega) hc, if_pos (by omega)]
    congr 1 <;> omega

/-- C31/C32 fail for larger outputs: when the output has more than 2^32 bytes, the call never
returns a completely initialised image. -/
theorem add_border_large_uninit (hw : 0 < w) (hh : 0 < h) (hch : 0 < ch) {b : Nat} (hb : 0 < b)
    (hex : List Char) (uw : IsU32 (w + 2 * b)) (uh : IsU32 (h + 2 * b))
    (hs : 2 ^ 32 < (w + 2 * b) * (h + 2 * b) * ch) (hsz : (w + 2 * b) * (h + 2 * b) * ch ≤ P.szMax)
    {hp hp' : Heap} {buf : Buf UInt8} {dims : Option (Nat × Nat)}
    (e : fcv_add_border P w h ch (some hex) b (some d) hp = .ok ((some buf, dims), hp')) :
    buf.cells[(w + 2 * b) * (h + 2 * b) * ch - 1]? = some none := by
  rw [add_border_eq hw hh hch hb hex uw uh hsz] at e
  rw [hm_bind] at e
  cases ha : allocFill ((w + 2 * b) * (h + 2 * b) * ch)
      (borderFill w h ch b (fcv_parse_hex_color hex) (w + 2 * b) (h + 2 * b) d) hp with
  | error e' => rw [ha] at e; cases e
  | ok q =>
    rw [ha] at e
    obtain ⟨q1, q2⟩ := q
    cases e
    have := borderFill_large (by omega) _ _ (allocFill_cells ha)
      (k := (w + 2 * b) * (h + 2 * b) * ch - 1)
    rw [this, List.getElem?_replicate, if_pos (by omega)]

/-- Such a call exists: 70000 × 70000 gray pixels. -/
example : 2 ^ 32 < (69998 + 2 * 1) * (69998 + 2 * 1) * 1 ∧
    (69998 + 2 * 1) * (69998 + 2 * 1) * 1 ≤ Plat.lp64.szMax := by decide

/-- C32 as stated: every byte of the result is initialised, for every accepted channel count. -/
def BorderInitialised : Prop :=
  ∀ (P : Plat) (w h ch b : Nat) (d : List UInt8) (hex : List Char) (hp hp' : Heap) (buf : Buf UInt8)
    (dims : Option (Nat × Nat)), Img P w h ch d → 0 < ch → 0 < b →
    fcv_add_border P w h ch (some hex) b (some d) hp = .ok ((some buf, dims), hp') →
    ∀ v ∈ buf.cells, v ≠ none

/-- C32 is false: with two channels (gray and alpha) the border is never written. -/
theorem not_borderInitialised : ¬ BorderInitialised := by
  intro H
  have := H .lp64 1 1 2 1 [5, 6] "000000".toList Heap.fresh
    ⟨1, [0], fun _ => false⟩ ⟨0, List.replicate 8 none ++ [some 5, some 6] ++ List.replicate 8 none⟩
    (some (3, 3))
    ⟨by decide, by decide, by decide, by decide, by decide, by decide⟩ (by decide) (by decide)
    (by rfl) none (by simp)
  exact this rfl

/-- C32 for 1, 3 and 4 channels and outputs of at most 2^32 bytes. -/
theorem add_border_initialised_partial (im : Img P w h ch d) (hch : ch = 1 ∨ ch = 3 ∨ ch = 4)
    {b : Nat} (hb : 0 < b) (hex : List Char)
    (hs : (w + 2 * b) * (h + 2 * b) * ch ≤ 2 ^ 32) (hsz : (w + 2 * b) * (h + 2 * b) * ch ≤ P.szMax)
    (hp : Heap) :
    BorderReturns (fcv_add_border P w h ch (some hex) b (some d)) hp (w + 2 * b) (h + 2 * b)
      (fun c => ∀ v ∈ c, v ≠ none) := by
  rcases hcol : fcv_parse_hex_color hex with ⟨r, g, bl⟩
  obtain ⟨L, _, H⟩ := add_border_correct im hch hb hcol hs hsz
  obtain ⟨q, h', e, h1, h2⟩ := H hp
  refine ⟨q, h', e, h1, ?_⟩
  rcases q with ⟨q1, q2⟩
  cases q1 with
  | none => exact h2
  | some buf =>
    obtain ⟨hf, hc⟩ := h2
    refine ⟨hf, ?_⟩
    rw [hc]
    intro v hv
    simp only [List.mem_map] at hv
    obtain ⟨u, _, rfl⟩ := hv
    simp

/-- C09: bad arguments of `fcv_add_border`. -/
theorem add_border_rejects {b : Nat} {hex : Option (List Char)} {data : Option (List UInt8)}
    (hp : Heap) (uw : IsU32 w) (uh : IsU32 h)
    (hbad : data = none ∨ hex = none ∨ b = 0 ∨ ch = 0 ∨ w = 0 ∨ h = 0 ∨
      ¬ IsU32 (w + 2 * b) ∨ ¬ IsU32 (h + 2 * b)) :
    fcv_add_border P w h ch hex b data hp = .ok ((none, none), hp) := by
  unfold IsU32 at *
  unfold fcv_add_border
  cases data with
  | none => rfl
  | some d =>
    cases hex with
    | none => rfl
    | some hx =>
      simp only [reduceCtorEq, false_or] at hbad
      simp only
      by_cases h1 : b = 0 ∨ ch = 0
      · rw [if_pos h1]; rfl
      by_cases h2 : w = 0 ∨ h = 0
      · rw [if_neg h1, if_pos h2]; rfl
      rw [if_neg h1, if_neg h2, u32sub_eq (by omega) (by omega), u32sub_eq (by omega) (by omega),
        if_pos (by omega)]
      rfl

end FlatCV.Props
