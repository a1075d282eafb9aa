/-
JPEG files that were written are loaded again (C137-C140).
-/
import Verif.Lemmas.JpegFlat

namespace FlatCV.Props
open Model Jpg

variable {data : List UInt8} {w h : ℕ}

/-- The pixel in row `y` and column `x` of an image of `w` pixels in a row is `r`, `g`, `b`, `a`. -/
def PixelIs (out : Cells UInt8) (w y x : ℕ) (r g b a : UInt8) : Prop :=
  out[(y * w + x) * 4]? = some (some r) ∧ out[(y * w + x) * 4 + 1]? = some (some g) ∧ out[(y * w + x) * 4 + 2]? = some (some b) ∧
    out[(y * w + x) * 4 + 3]? = some (some a)

theorem loads_pixel {l : List UInt8} {d : Contents} {out : Cells UInt8} {P : ℕ → ℕ → ℕ → UInt8} (L : Loads w h data l d out P) {y x : ℕ} (hy : y < h) (hx : x < w) :
    PixelIs out w y x (redAt P w h y x) (greenAt P w h y x) (blueAt P w h y x) 255 := by
  have := L.lines.2 y hy x hx
  rw [show 4 * w * y + 4 * x = (y * w + x) * 4 by ring] at this
  exact this

/-- Every request for memory succeeds. -/
def allPng : PngMem := ⟨fun _ => true, true, fun _ => true, fun _ => true, fun _ => true, true, true, true, true⟩
def allJpeg : JpegMem := ⟨true, true, fun _ => true, fun _ => true, true⟩

theorem allJpeg_enough : JpegMem.Enough allJpeg := ⟨rfl, rfl, fun _ => rfl, fun _ => rfl, rfl⟩

/-- The positions that are used. -/
theorem luma_in {y x : ℕ} (hy : y < h) (hx : x < w) : y < (h + 15) / 16 * side 0 * 8 ∧ x < (w + 15) / 16 * side 0 * 8 := by
  rw [show side 0 = 2 from rfl]
  omega

theorem diff_in {c : ℕ} (hc : c ≠ 0) {i j : ℕ} (hi : i < (h + 1) / 2) (hj : j < (w + 1) / 2) : i < (h + 15) / 16 * side c * 8 ∧ j < (w + 15) / 16 * side c * 8 := by
  rw [show side c = 1 from if_neg hc]
  omega

/-- C137: an image that was saved as JPEG can be loaded again: the loader, with enough memory, returns an image of the same size with all
pixels opaque, and the colours of every pixel are those that the file stands for by the standards (T.81 for the samples, T.871 for
enlargement and colours, all in exact arithmetic), up to 6.4 of 255 levels in red, 5.5 in green and 7.4 in blue. -/
theorem jpeg_load (hi : JpegFits w h data) :
    ∃ l d, stbi_write_jpg false true w h data = .ok (1, some l) ∧ readJpeg l = some d ∧ d.frame.width = w ∧ d.frame.height = h ∧
      ∀ (pm : PngMem) (mem : JpegMem) (_ : JpegMem.Enough mem) (feof : Ctx → Bool) (prog other : CM (Option Loaded)),
        ∃ out, stbi_load_any pm mem feof prog other l = .ok (some ⟨w, h, 3, out⟩) ∧ ∀ y < h, ∀ x < w, ∃ r g b : UInt8, PixelIs out w y x r g b 255 ∧
          |(r.toNat : ℝ) - d.red y x| ≤ 6.4 ∧ |(g.toNat : ℝ) - d.green y x| ≤ 5.5 ∧ |(b.toNat : ℝ) - d.blue y x| ≤ 7.4 := by
  obtain ⟨l, d, ew, ld⟩ := written_loads hi
  have rd : readJpeg l = some d ∧ d.frame = ⟨h, w, [⟨1, 2, 2, 0⟩, ⟨2, 1, 1, 1⟩, ⟨3, 1, 1, 1⟩]⟩ := by
    obtain ⟨out, P, -, L⟩ := ld (pm := allPng) (mem := allJpeg) allJpeg_enough
      (feof := fun _ => false) (prog := .ok none) (other := .ok none)
    exact ⟨L.read, L.frame⟩
  refine ⟨l, d, ew, rd.1, by rw [rd.2], by rw [rd.2], fun pm mem hm feof prog other => ?_⟩
  obtain ⟨out, P, o1, L⟩ := ld (pm := pm) hm (feof := feof) (prog := prog) (other := other)
  refine ⟨out, o1, fun y hy x hx => ⟨_, _, _, loads_pixel L hy hx, ?_⟩⟩
  have n0 : |((P 0 y x).toNat : ℝ) - d.level 0 y x| ≤ 211 / 100 := L.near (by norm_num) (luma_in hy hx).1 (luma_in hy hx).2
  have nc : ∀ c, c ≠ 0 → c < 3 → |((upByte (P c (y / 2)) (P c (beyond ((h + 1) / 2) y)) ((w + 1) / 2) x).toNat : ℝ) - d.half c y x| ≤ 1 / 2 + 211 / 100 := by
    intro c hc0 hc
    unfold Contents.half
    rw [rd.2]
    exact half_near (p := P c) (L := d.level c) (fun i hi j hj => L.near hc (diff_in hc0 hi hj).1 (diff_in hc0 hi hj).2) (by omega) (by omega)
  have n1 := nc 1 (by norm_num) (by norm_num)
  have n2 := nc 2 (by norm_num) (by norm_num)
  clear nc
  unfold redAt greenAt blueAt
  generalize upByte (P 1 (y / 2)) (P 1 (beyond ((h + 1) / 2) y)) ((w + 1) / 2) x = B at *
  generalize upByte (P 2 (y / 2)) (P 2 (beyond ((h + 1) / 2) y)) ((w + 1) / 2) x = R at *
  have r1 := jpeg_red_near (P 0 y x) R
  have r2 := jpeg_green_near (P 0 y x) B R
  have r3 := jpeg_blue_near (P 0 y x) B
  have s1 := (limit_lip (redOf (P 0 y x).toNat R.toNat) (redOf (d.level 0 y x) (d.half 2 y x))).trans (red_lip n0 n2)
  have s2 := (limit_lip (greenOf (P 0 y x).toNat B.toNat R.toNat) (greenOf (d.level 0 y x) (d.half 1 y x) (d.half 2 y x))).trans (green_lip n0 n1 n2)
  have s3 := (limit_lip (blueOf (P 0 y x).toNat B.toNat) (blueOf (d.level 0 y x) (d.half 1 y x))).trans (blue_lip n0 n1)
  unfold Contents.red Contents.green Contents.blue
  refine ⟨(abs_sub_le _ _ _).trans ((add_le_add r1 s1).trans (by norm_num)), (abs_sub_le _ _ _).trans ((add_le_add r2 s2).trans (by norm_num)), (abs_sub_le _ _ _).trans ((add_le_add r3 s3).trans (by norm_num))⟩

/-- An image of 3 by 2 pixels. -/
example : ∃ l, stbi_write_jpg false true 3 2 jpeg3x2 = .ok (1, some l) ∧
    ∃ out, stbi_load_any allPng allJpeg (fun _ => false) (.ok none) (.ok none) l =
      .ok (some ⟨3, 2, 3, out⟩) := by
  obtain ⟨l, d, h1, -, -, -, h2⟩ := jpeg_load (w := 3) (h := 2) (data := jpeg3x2) ⟨by decide, by decide, by decide, by decide, by decide, by decide⟩
  obtain ⟨out, h3, -⟩ := h2 allPng allJpeg allJpeg_enough (fun _ => false) (.ok none) (.ok none)
  exact ⟨l, h1, out, h3⟩

/-! ### Grey images -/

/-- Every pixel has the same red, green and blue. -/
def Grey (w h : ℕ) (data : List UInt8) : Prop :=
  ∀ p < w * h, data.getD (p * 4 + 1) 0 = data.getD (p * 4) 0 ∧ data.getD (p * 4 + 2) 0 = data.getD (p * 4) 0

theorem pos_in (hw : 0 < w) (hh : 0 < h) (y x : ℕ) : min y (h - 1) * w + min x (w - 1) < w * h := by
  have h1 : (min y (h - 1) + 1) * w ≤ h * w := Nat.mul_le_mul_right _ (by omega)
  have h2 : (min y (h - 1) + 1) * w = min y (h - 1) * w + w := by ring
  have h3 : h * w = w * h := Nat.mul_comm _ _
  omega

theorem plane_diff (y x : ℕ) : plane w h data 1 y x = blueDiff (data.getD ((min y (h - 1) * w + min x (w - 1)) * 4) 0).toNat
    (data.getD ((min y (h - 1) * w + min x (w - 1)) * 4 + 1) 0).toNat (data.getD ((min y (h - 1) * w + min x (w - 1)) * 4 + 2) 0).toNat ∧
    plane w h data 2 y x = redDiff (data.getD ((min y (h - 1) * w + min x (w - 1)) * 4) 0).toNat
    (data.getD ((min y (h - 1) * w + min x (w - 1)) * 4 + 1) 0).toNat (data.getD ((min y (h - 1) * w + min x (w - 1)) * 4 + 2) 0).toNat ∧
    plane w h data 0 y x = luma (data.getD ((min y (h - 1) * w + min x (w - 1)) * 4) 0).toNat
    (data.getD ((min y (h - 1) * w + min x (w - 1)) * 4 + 1) 0).toNat (data.getD ((min y (h - 1) * w + min x (w - 1)) * 4 + 2) 0).toNat - 128 := ⟨rfl, rfl, rfl⟩

theorem grey_diff (hw : 0 < w) (hh : 0 < h) (g : Grey w h data) {c : ℕ} (hc : c ≠ 0) (hc3 : c < 3) (y x : ℕ) : sample w h data c y x = 0 := by
  have hp : ∀ y x, plane w h data c y x = 0 := by
    intro y x
    obtain ⟨g1, g2⟩ := g _ (pos_in hw hh y x)
    rcases three_cases hc3 with rfl | rfl | rfl
    · exact absurd rfl hc
    · rw [(plane_diff y x).1, g1, g2]
      unfold blueDiff luma
      ring
    · rw [(plane_diff y x).2.1, g1, g2]
      unfold redDiff luma
      ring
  unfold sample
  rw [if_neg hc, hp, hp, hp, hp]
  norm_num

theorem grey_luma (hw : 0 < w) (hh : 0 < h) (g : Grey w h data) {y x : ℕ} (hy : y < h) (hx : x < w) : sample w h data 0 y x = (data.getD ((y * w + x) * 4) 0).toNat - 128 := by
  obtain ⟨g1, g2⟩ := g _ (pos_in hw hh y x)
  unfold sample
  rw [if_pos rfl, (plane_diff y x).2.2, g1, g2, Nat.min_eq_left (by omega), Nat.min_eq_left (by omega)]
  unfold luma
  ring

theorem loads_grey {l : List UInt8} {d : Contents} {out : Cells UInt8} {P : ℕ → ℕ → ℕ → UInt8} (L : Loads w h data l d out P) (hw : 0 < w) (hh : 0 < h) (g : Grey w h data)
    {y x : ℕ} (hy : y < h) (hx : x < w) : PixelIs out w y x (P 0 y x) (P 0 y x) (P 0 y x) 255 := by
  have m : ∀ c, c ≠ 0 → c < 3 → ∀ i < (h + 1) / 2, ∀ j < (w + 1) / 2, P c i j = 128 := by
    intro c hc0 hc i hi j hj
    have := L.flat hc (m := 0) (grey_diff hw hh g hc0 hc) (diff_in hc0 hi hj).1 (diff_in hc0 hi hj).2
    refine byte_near ?_
    have e : limit (128 + ((0 : ℚ) : ℝ)) = ((128 : UInt8).toNat : ℝ) := by
      rw [Rat.cast_zero, add_zero]
      exact limit_byte 128
    rwa [e] at this
  have u : ∀ c, c ≠ 0 → c < 3 → upByte (P c (y / 2)) (P c (beyond ((h + 1) / 2) y)) ((w + 1) / 2) x = 128 := by
    intro c hc0 hc
    have b1 := beyond_lt (n := (h + 1) / 2) (x := y) (by omega)
    have b2 := beyond_lt (n := (w + 1) / 2) (x := x) (by omega)
    exact upByte_mid ⟨m c hc0 hc _ (by omega) _ (by omega), m c hc0 hc _ (by omega) _ b2⟩ ⟨m c hc0 hc _ b1 _ (by omega), m c hc0 hc _ b1 _ b2⟩
  have := loads_pixel L hy hx
  unfold redAt greenAt blueAt at this
  rw [u 1 (by norm_num) (by norm_num), u 2 (by norm_num) (by norm_num), (redB_mid _).1, (redB_mid _).2.1, (redB_mid _).2.2] at this
  exact this

/-- C138: a grey image that is saved as JPEG and loaded is grey and close to the original: in each block of 8 by 8 pixels the squares of the
differences add up to at most 5040 (a root mean square of 8.9 of 255 levels). -/
theorem jpeg_grey (hi : JpegFits w h data) (g : Grey w h data) :
    ∃ l, stbi_write_jpg false true w h data = .ok (1, some l) ∧
      ∀ (pm : PngMem) (mem : JpegMem) (_ : JpegMem.Enough mem) (feof : Ctx → Bool) (prog other : CM (Option Loaded)),
        ∃ out, ∃ V : ℕ → ℕ → UInt8, stbi_load_any pm mem feof prog other l = .ok (some ⟨w, h, 3, out⟩) ∧
          (∀ y < h, ∀ x < w, PixelIs out w y x (V y x) (V y x) (V y x) 255) ∧
          ∀ i j, ∑ y ∈ Finset.range 8, ∑ x ∈ Finset.range 8, (if 8 * i + y < h ∧ 8 * j + x < w then
            ((V (8 * i + y) (8 * j + x)).toNat - (data.getD (((8 * i + y) * w + (8 * j + x)) * 4) 0).toNat : ℝ) ^ 2 else 0) ≤ 5040 := by
  obtain ⟨l, d, ew, ld⟩ := written_loads hi
  refine ⟨l, ew, fun pm mem hm feof prog other => ?_⟩
  obtain ⟨out, P, o1, L⟩ := ld (pm := pm) hm (feof := feof) (prog := prog) (other := other)
  refine ⟨out, P 0, o1, fun y hy x hx => loads_grey L hi.w_pos hi.h_pos g hy hx, fun i j => ?_⟩
  by_cases hin : 8 * i < h ∧ 8 * j < w
  swap
  · rw [Finset.sum_eq_zero]
    · norm_num
    · intro y _
      refine Finset.sum_eq_zero fun x _ => ?_
      rw [if_neg (by omega)]
  obtain ⟨l', d', f1, f2, f3, f4⟩ := jpeg_recon hi
  have el := wrote_inj ew f1
  rw [← el, L.read] at f2
  have ed := Option.some.inj f2
  rw [← ed] at f3 f4
  have bd := f4 0 (by norm_num) i (by
    rw [f3]
    show i < 2 * (frame420 w h).down
    rw [down420]
    omega) j (by
    rw [f3]
    show j < 2 * (frame420 w h).across
    rw [across420]
    omega)
  rw [if_pos rfl] at bd
  have key : ∀ y ∈ Finset.range 8, ∀ x ∈ Finset.range 8, (if 8 * i + y < h ∧ 8 * j + x < w then
      ((P 0 (8 * i + y) (8 * j + x)).toNat - (data.getD (((8 * i + y) * w + (8 * j + x)) * 4) 0).toNat : ℝ) ^ 2 else 0) ≤
      131 / 100 * (d.recon 0 (8 * i + y) (8 * j + x) - sample w h data 0 (8 * i + y) (8 * j + x)) ^ 2 + 131 / 31 * (211 / 100) ^ 2 := by
    intro y _ x _
    split
    · rename_i hc
      have e0 := grey_luma hi.w_pos hi.h_pos g hc.1 hc.2
      have n0 : |((P 0 (8 * i + y) (8 * j + x)).toNat : ℝ) - d.level 0 (8 * i + y) (8 * j + x)| ≤ 211 / 100 := L.near (by norm_num) (luma_in hc.1 hc.2).1 (luma_in hc.1 hc.2).2
      have n1 := limit_lip (128 + d.recon 0 (8 * i + y) (8 * j + x)) ((data.getD (((8 * i + y) * w + (8 * j + x)) * 4) 0).toNat)
      rw [limit_byte] at n1
      unfold Contents.level at n0
      rw [e0]
      push_cast
      generalize ((P 0 (8 * i + y) (8 * j + x)).toNat : ℝ) = p at *
      generalize ((data.getD (((8 * i + y) * w + (8 * j + x)) * 4) 0).toNat : ℝ) = q at *
      generalize limit (128 + d.recon 0 (8 * i + y) (8 * j + x)) = v at *
      have n2 : (v - q) ^ 2 ≤ (d.recon 0 (8 * i + y) (8 * j + x) - (q - 128)) ^ 2 := by
        rw [show d.recon 0 (8 * i + y) (8 * j + x) - (q - 128) = 128 + d.recon 0 (8 * i + y) (8 * j + x) - q by ring]
        exact sq_le_sq.2 n1
      have n3 : (p - v) ^ 2 ≤ (211 / 100) ^ 2 := by
        rw [← sq_abs]
        exact pow_le_pow_left₀ (abs_nonneg _) n0 2
      nlinarith [sq_nonneg ((v - q) * 31 - (p - v) * 100)]
    · positivity
  refine (Finset.sum_le_sum fun y hy => Finset.sum_le_sum fun x hx => key y hy x hx).trans ?_
  simp only [Finset.sum_add_distrib, ← Finset.mul_sum, Finset.sum_const, Finset.card_range]
  simp only [nsmul_eq_mul]
  push_cast
  linarith

/-- A grey image of 2 by 1 pixels. -/
example : Grey 2 1 [7, 7, 7, 255, 200, 200, 200, 255] ∧ JpegFits 2 1 [7, 7, 7, 255, 200, 200, 200, 255] :=
  ⟨by unfold Grey; decide, by decide, by decide, by decide, by decide, by decide, by decide⟩

/-! ### Images of one colour -/

/-- Every pixel has the colour `r`, `g`, `b`. -/
def OneColour (w h : ℕ) (data : List UInt8) (r g b : UInt8) : Prop :=
  ∀ p < w * h, data.getD (p * 4) 0 = r ∧ data.getD (p * 4 + 1) 0 = g ∧ data.getD (p * 4 + 2) 0 = b

theorem OneColour.samples {r g b : UInt8} (hw : 0 < w) (hh : 0 < h) (oc : OneColour w h data r g b) (y x : ℕ) :
    sample w h data 0 y x = luma r.toNat g.toNat b.toNat - 128 ∧ sample w h data 1 y x = blueDiff r.toNat g.toNat b.toNat ∧
      sample w h data 2 y x = redDiff r.toNat g.toNat b.toNat := by
  have hp : ∀ y x, plane w h data 0 y x = luma r.toNat g.toNat b.toNat - 128 ∧ plane w h data 1 y x = blueDiff r.toNat g.toNat b.toNat ∧
      plane w h data 2 y x = redDiff r.toNat g.toNat b.toNat := by
    intro y x
    obtain ⟨g1, g2, g3⟩ := oc _ (pos_in hw hh y x)
    obtain ⟨e1, e2, e3⟩ := plane_diff (w := w) (h := h) (data := data) y x
    rw [e1, e2, e3, g1, g2, g3]
    exact ⟨rfl, rfl, rfl⟩
  unfold sample
  rw [if_pos rfl, if_neg (by norm_num), if_neg (by norm_num)]
  simp only [(hp _ _).1, (hp _ _).2.1, (hp _ _).2.2, true_and]
  constructor <;> ring

/-- C139: an image of one single grey is the same after saving it as JPEG and loading it. -/
theorem jpeg_one_grey (hi : JpegFits w h data) {v : UInt8} (oc : OneColour w h data v v v) :
    ∃ l, stbi_write_jpg false true w h data = .ok (1, some l) ∧
      ∀ (pm : PngMem) (mem : JpegMem) (_ : JpegMem.Enough mem) (feof : Ctx → Bool) (prog other : CM (Option Loaded)),
        ∃ out, stbi_load_any pm mem feof prog other l = .ok (some ⟨w, h, 3, out⟩) ∧ ∀ y < h, ∀ x < w, PixelIs out w y x v v v 255 := by
  obtain ⟨l, d, ew, ld⟩ := written_loads hi
  refine ⟨l, ew, fun pm mem hm feof prog other => ?_⟩
  obtain ⟨out, P, o1, L⟩ := ld (pm := pm) hm (feof := feof) (prog := prog) (other := other)
  refine ⟨out, o1, fun y hy x hx => ?_⟩
  have g : Grey w h data := by
    intro p hp
    obtain ⟨h1, h2, h3⟩ := oc p hp
    rw [h1, h2, h3]
    exact ⟨rfl, rfl⟩
  have := loads_grey L hi.w_pos hi.h_pos g hy hx
  have e : P 0 y x = v := by
    refine byte_near ?_
    have f := L.flat (c := 0) (by norm_num) (fun y x => (oc.samples hi.w_pos hi.h_pos y x).1) (luma_in hy hx).1 (luma_in hy hx).2
    rw [← limit_byte v]
    refine le_of_eq_of_le ?_ f
    congr 3
    unfold luma
    push_cast
    ring
  rwa [e] at this

/-- A black image of 2 by 2 pixels. -/
example : JpegFits 2 2 (List.replicate 16 0) ∧ OneColour 2 2 (List.replicate 16 0) 0 0 0 :=
  ⟨⟨by decide, by decide, by decide, by decide, by decide, by decide⟩, by unfold OneColour; decide⟩

theorem colour_back (r g b : ℝ) : redOf (299 / 1000 * r + 587 / 1000 * g + 114 / 1000 * b) (128 + (r - (299 / 1000 * r + 587 / 1000 * g + 114 / 1000 * b)) / (1402 / 1000)) = r ∧
    greenOf (299 / 1000 * r + 587 / 1000 * g + 114 / 1000 * b) (128 + (b - (299 / 1000 * r + 587 / 1000 * g + 114 / 1000 * b)) / (1772 / 1000))
      (128 + (r - (299 / 1000 * r + 587 / 1000 * g + 114 / 1000 * b)) / (1402 / 1000)) = g ∧
    blueOf (299 / 1000 * r + 587 / 1000 * g + 114 / 1000 * b) (128 + (b - (299 / 1000 * r + 587 / 1000 * g + 114 / 1000 * b)) / (1772 / 1000)) = b := by
  unfold redOf greenOf blueOf
  norm_num
  refine ⟨?_, ?_, ?_⟩ <;> ring

/-- How far limiting moves a value that is at most one half out of range. -/
theorem limit_near {x : ℝ} (h1 : -1 / 2 ≤ x) (h2 : x ≤ 511 / 2) : |limit x - x| ≤ 1 / 2 := by
  unfold limit
  rw [abs_le]
  rcases le_total x 0 with h | h
  · rw [min_eq_right (by linarith), max_eq_left h]
    constructor <;> linarith
  · rcases le_total x 255 with h' | h'
    · rw [min_eq_right h', max_eq_right h]
      constructor <;> linarith
    · rw [min_eq_left h', max_eq_right (by norm_num)]
      constructor <;> linarith

theorem between_const (n : ℕ) (k : ℝ) (x : ℕ) : between n (fun _ => k) x = k := by
  unfold between
  ring

/-- C140: an image of one single colour is nearly the same after saving it as JPEG and loading it: every pixel is opaque and its red is at most 4, its
green at most 3 and its blue at most 5 levels away. -/
theorem jpeg_one_colour (hi : JpegFits w h data) {r g b : UInt8} (oc : OneColour w h data r g b) :
    ∃ l, stbi_write_jpg false true w h data = .ok (1, some l) ∧
      ∀ (pm : PngMem) (mem : JpegMem) (_ : JpegMem.Enough mem) (feof : Ctx → Bool) (prog other : CM (Option Loaded)),
        ∃ out, stbi_load_any pm mem feof prog other l = .ok (some ⟨w, h, 3, out⟩) ∧ ∀ y < h, ∀ x < w, ∃ r' g' b' : UInt8, PixelIs out w y x r' g' b' 255 ∧
          |(r'.toNat : ℤ) - r.toNat| ≤ 4 ∧ |(g'.toNat : ℤ) - g.toNat| ≤ 3 ∧ |(b'.toNat : ℤ) - b.toNat| ≤ 5 := by
  obtain ⟨l, d, ew, ld⟩ := written_loads hi
  refine ⟨l, ew, fun pm mem hm feof prog other => ?_⟩
  obtain ⟨out, P, o1, L⟩ := ld (pm := pm) hm (feof := feof) (prog := prog) (other := other)
  refine ⟨out, o1, fun y hy x hx => ⟨_, _, _, loads_pixel L hy hx, ?_⟩⟩
  have br := byte_real r
  have bg := byte_real g
  have bb := byte_real b
  have f0 := L.flat (c := 0) (by norm_num) (fun y x => (oc.samples hi.w_pos hi.h_pos y x).1) (luma_in hy hx).1 (luma_in hy hx).2
  have f1 : ∀ i < (h + 1) / 2, ∀ j < (w + 1) / 2, |((P 1 i j).toNat : ℝ) - limit (128 + (blueDiff r.toNat g.toNat b.toNat : ℚ))| ≤ 987 / 1000 := fun i hi' j hj =>
    L.flat (c := 1) (by norm_num) (fun y x => (oc.samples hi.w_pos hi.h_pos y x).2.1) (diff_in (by norm_num) hi' hj).1 (diff_in (by norm_num) hi' hj).2
  have f2 : ∀ i < (h + 1) / 2, ∀ j < (w + 1) / 2, |((P 2 i j).toNat : ℝ) - limit (128 + (redDiff r.toNat g.toNat b.toNat : ℚ))| ≤ 987 / 1000 := fun i hi' j hj =>
    L.flat (c := 2) (by norm_num) (fun y x => (oc.samples hi.w_pos hi.h_pos y x).2.2) (diff_in (by norm_num) hi' hj).1 (diff_in (by norm_num) hi' hj).2
  have n1 := half_near f1 (y := y) (x := x) (by omega) (by omega)
  have n2 := half_near f2 (y := y) (x := x) (by omega) (by omega)
  rw [between_const, between_const] at n1 n2
  have c1 := colour_back r.toNat g.toNat b.toNat
  have k0 : limit (128 + ((luma r.toNat g.toNat b.toNat - 128 : ℚ) : ℝ)) = 299 / 1000 * r.toNat + 587 / 1000 * g.toNat + 114 / 1000 * b.toNat := by
    unfold luma limit
    push_cast
    rw [min_eq_right (by linarith [br.1, br.2, bg.1, bg.2, bb.1, bb.2]), max_eq_right (by linarith [br.1, br.2, bg.1, bg.2, bb.1, bb.2])]
    ring
  rw [k0] at f0
  have k1 : |limit (128 + ((blueDiff r.toNat g.toNat b.toNat : ℚ) : ℝ)) -
      (128 + (b.toNat - (299 / 1000 * r.toNat + 587 / 1000 * g.toNat + 114 / 1000 * b.toNat)) / (1772 / 1000))| ≤ 1 / 2 := by
    unfold blueDiff luma
    push_cast
    refine limit_near ?_ ?_ <;> linarith [br.1, br.2, bg.1, bg.2, bb.1, bb.2]
  have k2 : |limit (128 + ((redDiff r.toNat g.toNat b.toNat : ℚ) : ℝ)) -
      (128 + (r.toNat - (299 / 1000 * r.toNat + 587 / 1000 * g.toNat + 114 / 1000 * b.toNat)) / (1402 / 1000))| ≤ 1 / 2 := by
    unfold redDiff luma
    push_cast
    refine limit_near ?_ ?_ <;> linarith [br.1, br.2, bg.1, bg.2, bb.1, bb.2]
  unfold redAt greenAt blueAt
  generalize upByte (P 1 (y / 2)) (P 1 (beyond ((h + 1) / 2) y)) ((w + 1) / 2) x = B at *
  generalize upByte (P 2 (y / 2)) (P 2 (beyond ((h + 1) / 2) y)) ((w + 1) / 2) x = R at *
  have m1 := (abs_sub_le _ _ _).trans (add_le_add n1 k1)
  have m2 := (abs_sub_le _ _ _).trans (add_le_add n2 k2)
  have s1 := (limit_lip _ _).trans (red_lip f0 m2)
  have s2 := (limit_lip _ _).trans (green_lip f0 m1 m2)
  have s3 := (limit_lip _ _).trans (blue_lip f0 m1)
  rw [c1.1, limit_byte] at s1
  rw [c1.2.1, limit_byte] at s2
  rw [c1.2.2, limit_byte] at s3
  have t1 := (abs_sub_le _ _ _).trans (add_le_add (jpeg_red_near (P 0 y x) R) s1)
  have t2 := (abs_sub_le _ _ _).trans (add_le_add (jpeg_green_near (P 0 y x) B R) s2)
  have t3 := (abs_sub_le _ _ _).trans (add_le_add (jpeg_blue_near (P 0 y x) B) s3)
  have key : ∀ (a b : UInt8) (e : ℝ) (n : ℤ), |(a.toNat : ℝ) - b.toNat| ≤ e → e < n + 1 → |(a.toNat : ℤ) - b.toNat| ≤ n := by
    intro a b e n h1 h2
    have : ((|(a.toNat : ℤ) - b.toNat| : ℤ) : ℝ) < ((n + 1 : ℤ) : ℝ) := by
      push_cast
      exact h1.trans_lt h2
    have : |(a.toNat : ℤ) - b.toNat| < n + 1 := by exact_mod_cast this
    omega
  exact ⟨key _ _ _ 4 t1 (by norm_num), key _ _ _ 3 t2 (by norm_num), key _ _ _ 5 t3 (by norm_num)⟩

/-- A red image of one pixel. -/
example : JpegFits 1 1 [255, 0, 0, 255] ∧ OneColour 1 1 [255, 0, 0, 255] 255 0 0 :=
  ⟨⟨by decide, by decide, by decide, by decide, by decide, by decide⟩, by unfold OneColour; decide⟩

end FlatCV.Props
