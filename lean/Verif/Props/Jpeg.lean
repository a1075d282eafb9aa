/-
The JPEG files that are written (C128-C131).
-/
import Verif.Lemmas.JpegFile
import Verif.Lemmas.JpegInverse

namespace FlatCV.Props
open Model Jpg

variable {data : List UInt8} {w h : ℕ}

/-- An image that a JPEG file can hold and whose bytes an `int` can count. -/
structure JpegFits (w h : ℕ) (data : List UInt8) : Prop where
  w_pos : 0 < w
  h_pos : 0 < h
  w_le : w ≤ 65535
  h_le : h ≤ 65535
  bytes : w * h * 4 ≤ 2147483647
  len : data.length = w * h * 4

/-- The step of coefficient `k` of component `c`, at quality 90. -/
def stepOf (c k : ℕ) : ℕ := fifth (if c = 0 then tableK1 else tableK2) k

/-- C128 and C129: the JPEG writer, given an image, returns 1 and leaves a file that a baseline JPEG reader accepts: with the width and
height of the image and three components, the two differences at half the resolution; with the steps of the standard's tables at quality
90; and in it every coefficient times its step is within half a step and 1/16 of the cosine transform of the samples.

The signed left shift in the writer is taken as a shift of the bits; read strictly it is undefined (`jpeg_shift_overflows`). -/
theorem jpeg_file (hi : JpegFits w h data) :
    ∃ l d, stbi_write_jpg false true w h data = .ok (1, some l) ∧ readJpeg l = some d ∧
      d.frame = ⟨h, w, [⟨1, 2, 2, 0⟩, ⟨2, 1, 1, 1⟩, ⟨3, 1, 1, 1⟩]⟩ ∧
      (∀ c < 3, ∀ k < 64, d.step c k = stepOf c k ∧ 2 ≤ stepOf c k) ∧
      ∀ c < 3, ∀ i < (d.frame.comps.getD c ⟨0, 1, 1, 0⟩).vs * d.frame.down, ∀ j < (d.frame.comps.getD c ⟨0, 1, 1, 0⟩).hs * d.frame.across,
        ∀ k < 64, |(d.step c k : ℝ) * d.coef c i j k - ideal w h data c i j k| ≤ d.step c k / 2 + 1 / 16 := by
  obtain ⟨l, ms, e, hr, hm⟩ := jpg_core_ok hi.len hi.w_pos hi.h_pos hi.w_le hi.h_le hi.bytes
  have st : ∀ c < 3, ∀ k < 64, Contents.step ⟨frame420 w h, (scan3 yTab uvTab).map (·.q), ms⟩ c k = stepOf c k ∧ 2 ≤ stepOf c k := by
    have : ∀ c < 3, ∀ k < 64, ((List.map (·.q) (scan3 yTab uvTab)).getD c []).getD k 0 = stepOf c k ∧ 2 ≤ stepOf c k := by decide +kernel
    exact this
  refine ⟨l, _, ?_, hr, rfl, st, ?_⟩
  · unfold stbi_write_jpg
    rw [if_pos rfl, e]
    rfl
  have tq : ∀ k, ((yTab.getD k 0).toNat : ℕ) = (yTab.map (·.toNat)).getD k 0 ∧ ((uvTab.getD k 0).toNat : ℕ) = (uvTab.map (·.toNat)).getD k 0 := by
    intro k
    simp only [List.getD_eq_getElem?_getD, List.getElem?_map]
    constructor
    · cases yTab[k]? <;> rfl
    · cases uvTab[k]? <;> rfl
  intro c hc i hi' j hj k hk
  have hc' : c = 0 ∨ c = 1 ∨ c = 2 := by omega
  rcases hc' with rfl | rfl | rfl
  · have hi2 : i < 2 * ((h + 15) / 16) := by rw [← down420 w h]; exact hi'
    have hj2 : j < 2 * ((w + 15) / 16) := by rw [← across420 w h]; exact hj
    obtain ⟨b00, b01, b10, b11, bu, bv, em, q1, q2, q3, q4, -, -⟩ := hm (i / 2) (j / 2) (by omega) (by omega)
    unfold Contents.coef Contents.step
    rw [show (List.map (·.q) (scan3 yTab uvTab)).getD 0 [] = yTab.map (·.toNat) from rfl]
    rw [show (frame420 w h).comps.getD 0 ⟨0, 1, 1, 0⟩ = ⟨1, 2, 2, 0⟩ from rfl]
    dsimp only
    rw [across420, em, ← (tq k).1]
    have hbi : i % 2 = 0 ∨ i % 2 = 1 := by omega
    have hbj : j % 2 = 0 ∨ j % 2 = 1 := by omega
    rcases hbi with bi | bi <;> rcases hbj with bj | bj
    · have := q1.2 k hk
      rw [show 2 * (i / 2) = i by omega, show 2 * (j / 2) = j by omega] at this
      rw [bi, bj]
      exact this
    · have := q2.2 k hk
      rw [show 2 * (i / 2) = i by omega, show 2 * (j / 2) + 1 = j by omega] at this
      rw [bi, bj]
      exact this
    · have := q3.2 k hk
      rw [show 2 * (i / 2) + 1 = i by omega, show 2 * (j / 2) = j by omega] at this
      rw [bi, bj]
      exact this
    · have := q4.2 k hk
      rw [show 2 * (i / 2) + 1 = i by omega, show 2 * (j / 2) + 1 = j by omega] at this
      rw [bi, bj]
      exact this
  · have hi2 : i < 1 * ((h + 15) / 16) := by rw [← down420 w h]; exact hi'
    have hj2 : j < 1 * ((w + 15) / 16) := by rw [← across420 w h]; exact hj
    obtain ⟨b00, b01, b10, b11, bu, bv, em, -, -, -, -, q1, -⟩ := hm i j (by omega) (by omega)
    unfold Contents.coef Contents.step
    rw [show (List.map (·.q) (scan3 yTab uvTab)).getD 1 [] = uvTab.map (·.toNat) from rfl]
    rw [show (frame420 w h).comps.getD 1 ⟨0, 1, 1, 0⟩ = ⟨2, 1, 1, 1⟩ from rfl]
    dsimp only
    rw [Nat.div_one, Nat.div_one, Nat.mod_one, Nat.mod_one, across420, em, ← (tq k).2]
    exact q1.2 k hk
  · have hi2 : i < 1 * ((h + 15) / 16) := by rw [← down420 w h]; exact hi'
    have hj2 : j < 1 * ((w + 15) / 16) := by rw [← across420 w h]; exact hj
    obtain ⟨b00, b01, b10, b11, bu, bv, em, -, -, -, -, -, q1⟩ := hm i j (by omega) (by omega)
    unfold Contents.coef Contents.step
    rw [show (List.map (·.q) (scan3 yTab uvTab)).getD 2 [] = uvTab.map (·.toNat) from rfl]
    rw [show (frame420 w h).comps.getD 2 ⟨0, 1, 1, 0⟩ = ⟨3, 1, 1, 1⟩ from rfl]
    dsimp only
    rw [Nat.div_one, Nat.div_one, Nat.mod_one, Nat.mod_one, across420, em, ← (tq k).2]
    exact q1.2 k hk

/-- An image of 3 by 2 pixels. -/
def jpeg3x2 : List UInt8 := [255, 0, 0, 255, 0, 255, 0, 255, 0, 0, 255, 255, 10, 20, 30, 255, 40, 50, 60, 255, 70, 80, 90, 255]

/-- The file for that image has the size 3 by 2 and four blocks of luminance; the first coefficient of each is that of its mean within
1 1/2 + 1/16. -/
example : ∃ l d, stbi_write_jpg false true 3 2 jpeg3x2 = .ok (1, some l) ∧ readJpeg l = some d ∧ d.frame.width = 3 ∧ d.frame.height = 2 ∧
    d.step 0 0 = 3 ∧ |(3 : ℝ) * d.coef 0 1 1 0 - ideal 3 2 jpeg3x2 0 1 1 0| ≤ 3 / 2 + 1 / 16 := by
  obtain ⟨l, d, h1, h2, h3, h4, h5⟩ := jpeg_file (w := 3) (h := 2) (data := jpeg3x2) ⟨by decide, by decide, by decide, by decide, by decide, by decide⟩
  have h6 : d.step 0 0 = 3 := (h4 0 (by decide) 0 (by decide)).1.trans (by decide +kernel)
  have h7 := h5 0 (by decide) 1 (by rw [h3]; decide) 1 (by rw [h3]; decide) 0 (by decide)
  rw [h6] at h7
  exact ⟨l, d, h1, h2, by rw [h3], by rw [h3], h6, by exact_mod_cast h7⟩

theorem zigzag_idx : ∀ v < 8, ∀ u < 8, zigzag.idxOf (v, u) < 64 ∧ zigzag.getD (zigzag.idxOf (v, u)) (0, 0) = (v, u) := by decide +kernel

theorem step_squares : ∀ c < 3, ∑ v ∈ Finset.range 8, ∑ u ∈ Finset.range 8, (8 * stepOf c (zigzag.idxOf (v, u)) + 1) ^ 2 ≤
    256 * (if c = 0 then 2925 else 5365) := by decide +kernel

/-- C130: the samples that the file stands for, by the exact inverse transform, are close to those of the image: in each block of 64 the
squares of the differences add up to at most 2925 for luminance (a root mean square of 6.77 of 255 levels) and to at most 5365 for the
two differences (9.16). -/
theorem jpeg_recon (hi : JpegFits w h data) :
    ∃ l d, stbi_write_jpg false true w h data = .ok (1, some l) ∧ readJpeg l = some d ∧
      d.frame = ⟨h, w, [⟨1, 2, 2, 0⟩, ⟨2, 1, 1, 1⟩, ⟨3, 1, 1, 1⟩]⟩ ∧
      ∀ c < 3, ∀ i < (d.frame.comps.getD c ⟨0, 1, 1, 0⟩).vs * d.frame.down, ∀ j < (d.frame.comps.getD c ⟨0, 1, 1, 0⟩).hs * d.frame.across,
        ∑ y ∈ Finset.range 8, ∑ x ∈ Finset.range 8, (d.recon c (8 * i + y) (8 * j + x) - sample w h data c (8 * i + y) (8 * j + x)) ^ 2 ≤
          if c = 0 then 2925 else 5365 := by
  obtain ⟨l, d, h1, h2, h3, h4, h5⟩ := jpeg_file hi
  refine ⟨l, d, h1, h2, h3, fun c hc i hi' j hj => ?_⟩
  have e : ∑ y ∈ Finset.range 8, ∑ x ∈ Finset.range 8, (d.recon c (8 * i + y) (8 * j + x) - sample w h data c (8 * i + y) (8 * j + x)) ^ 2 =
      ∑ y ∈ Finset.range 8, ∑ x ∈ Finset.range 8,
        (idct (fun v u => (d.step c (zigzag.idxOf (v, u)) : ℝ) * (d.coef c i j (zigzag.idxOf (v, u)) : ℝ)) y x -
          (fun y x => (sample w h data c (8 * i + y) (8 * j + x) : ℝ)) y x) ^ 2 := by
    refine Finset.sum_congr rfl fun y hy => Finset.sum_congr rfl fun x hx => ?_
    rw [Finset.mem_range] at hy hx
    unfold Contents.recon
    rw [show (8 * i + y) / 8 = i by omega, show (8 * j + x) / 8 = j by omega, show (8 * i + y) % 8 = y by omega, show (8 * j + x) % 8 = x by omega]
  rw [e, idct_dist]
  have sq : ∀ v ∈ Finset.range 8, ∀ u ∈ Finset.range 8,
      ((d.step c (zigzag.idxOf (v, u)) : ℝ) * (d.coef c i j (zigzag.idxOf (v, u)) : ℝ) -
        dct (fun y x => (sample w h data c (8 * i + y) (8 * j + x) : ℝ)) v u) ^ 2 ≤
      (((8 * stepOf c (zigzag.idxOf (v, u)) + 1) ^ 2 : ℕ) : ℝ) / 256 := by
    intro v hv u hu
    rw [Finset.mem_range] at hv hu
    obtain ⟨k1, k2⟩ := zigzag_idx v hv u hu
    have hb := h5 c hc i hi' j hj _ k1
    unfold ideal at hb
    rw [k2] at hb
    rw [(h4 c hc _ k1).1] at hb ⊢
    rw [← sq_abs]
    refine (pow_le_pow_left₀ (abs_nonneg _) hb 2).trans (le_of_eq ?_)
    push_cast
    ring
  refine (Finset.sum_le_sum fun v hv => Finset.sum_le_sum fun u hu => sq v hv u hu).trans ?_
  have := step_squares c hc
  have h' : ((∑ v ∈ Finset.range 8, ∑ u ∈ Finset.range 8, (8 * stepOf c (zigzag.idxOf (v, u)) + 1) ^ 2 : ℕ) : ℝ) ≤
      ((256 * (if c = 0 then 2925 else 5365) : ℕ) : ℝ) := by exact_mod_cast this
  rw [Nat.cast_sum] at h'
  simp only [Nat.cast_sum] at h'
  simp only [div_eq_mul_inv, ← Finset.sum_mul]
  rw [← div_eq_mul_inv, div_le_iff₀ (by norm_num)]
  refine h'.trans (le_of_eq ?_)
  split <;> norm_num

/-- The luminance of a black image of one pixel, as the file stands for it. -/
example : ∃ l d, stbi_write_jpg false true 1 1 [0, 0, 0, 255] = .ok (1, some l) ∧ readJpeg l = some d ∧
    (d.recon 0 0 0 - (-128)) ^ 2 ≤ 2925 := by
  obtain ⟨l, d, h1, h2, h3', h3⟩ := jpeg_recon (w := 1) (h := 1) (data := [0, 0, 0, 255]) ⟨by decide, by decide, by decide, by decide, by decide, by decide⟩
  refine ⟨l, d, h1, h2, ?_⟩
  have h4 := h3 0 (by decide) 0 (by rw [h3']; decide) 0 (by rw [h3']; decide)
  rw [if_pos rfl] at h4
  refine le_trans ?_ h4
  have e : (d.recon 0 0 0 - (-128)) ^ 2 = (fun y => ∑ x ∈ Finset.range 8, (d.recon 0 (8 * 0 + y) (8 * 0 + x) -
      (sample 1 1 [0, 0, 0, 255] 0 (8 * 0 + y) (8 * 0 + x) : ℝ)) ^ 2) 0 - ∑ x ∈ Finset.range 7, (d.recon 0 0 (x + 1) -
      (sample 1 1 [0, 0, 0, 255] 0 0 (x + 1) : ℝ)) ^ 2 := by
    dsimp only
    rw [Finset.sum_range_succ']
    have : (sample 1 1 [0, 0, 0, 255] 0 0 0 : ℝ) = -128 := by
      have : sample 1 1 [0, 0, 0, 255] 0 0 0 = -128 := by
        simp [sample, plane, luma]
      rw [this]
      norm_num
    simp only [Nat.mul_zero, Nat.zero_add, this]
    ring
  rw [e]
  refine (sub_le_self _ (Finset.sum_nonneg fun x _ => sq_nonneg _)).trans ?_
  exact Finset.single_le_sum (f := fun y => ∑ x ∈ Finset.range 8, (d.recon 0 (8 * 0 + y) (8 * 0 + x) -
      (sample 1 1 [0, 0, 0, 255] 0 (8 * 0 + y) (8 * 0 + x) : ℝ)) ^ 2) (fun y _ => Finset.sum_nonneg fun x _ => sq_nonneg _)
      (Finset.mem_range.2 (by norm_num))

/-! ### Where it fails -/

/-- Whether the outcome is an overflow. -/
def overflows {α : Type} : CM α → Bool
  | .error .signedOverflow => true
  | _ => false

theorem of_overflows {α : Type} {m : CM α} (h : overflows m = true) : m = .error .signedOverflow := by
  unfold overflows at h
  split at h
  · rfl
  · exact absurd h (by simp)

/-- Against C128: read strictly, the writer has undefined behaviour: for one black pixel it shifts an `int` so that the result does not
fit (stb_image_write.h:1263). -/
theorem jpeg_shift_overflows : stbi_write_jpg true true 1 1 [0, 0, 0, 255] = .error .signedOverflow := by
  have : overflows (stbi_write_jpg_core true 1 1 [0, 0, 0, 255]) = true := by decide +kernel
  unfold stbi_write_jpg
  rw [if_pos rfl, of_overflows this]
  rfl

/-- Against C131: an image with a side between 65536 and 900000 pixels.  The writer returns 1, but no reader finds an image of that size
in the file. -/
theorem jpeg_side_lost (hw : 0 < w) (hh : 0 < h) (hw' : w ≤ 900000) (hh' : h ≤ 900000) (hb : w * h * 4 ≤ 2147483647)
    (hd : data.length = w * h * 4) (hbig : 65536 ≤ w ∨ 65536 ≤ h) :
    ∃ l, stbi_write_jpg false true w h data = .ok (1, some l) ∧ ∀ d, readJpeg l = some d → ¬ (d.frame.width = w ∧ d.frame.height = h) := by
  obtain ⟨dat, bits, pad, ms, e, -⟩ := jpg_core_run hd hw hh hw' hh' hb
  refine ⟨jpgHead w h yTab uvTab ++ (stuff dat ++ [0xFF, 0xD9]), ?_, fun d hr he => ?_⟩
  · unfold stbi_write_jpg
    rw [if_pos rfl, e]
    rfl
  · have := readJpeg_size hr
    omega

/-- A row of 65536 pixels. -/
example : ∃ l, stbi_write_jpg false true 65536 1 (List.replicate 262144 0) = .ok (1, some l) ∧
    ∀ d, readJpeg l = some d → ¬ (d.frame.width = 65536 ∧ d.frame.height = 1) :=
  jpeg_side_lost (by norm_num) (by norm_num) (by norm_num) (by norm_num) (by norm_num) (by rw [List.length_replicate]) (Or.inl (by norm_num))

end FlatCV.Props
