/-
Properties of the arithmetic of the JPEG decoder (C133-C136).
-/
import Verif.Lemmas.JpegAccuracy
import Verif.Lemmas.JpegUp

namespace FlatCV.Props
open FlatCV Model Jpg

/-- The constants written in the model are the values of the macros in stb_image.h. -/
theorem jpeg_constants :
    (f2f 0.5411961 = .ok 2217 ∧ f2f (-1.847759065) = .ok (-7567) ∧ f2f 0.765366865 = .ok 3135 ∧ f2f 1.175875602 = .ok 4816 ∧
      f2f 0.298631336 = .ok 1223 ∧ f2f 2.053119869 = .ok 8410 ∧ f2f 3.072711026 = .ok 12586 ∧ f2f 1.501321110 = .ok 6149 ∧
      f2f (-0.899976223) = .ok (-3685) ∧ f2f (-2.562915447) = .ok (-10497) ∧ f2f (-1.961570560) = .ok (-8034) ∧ f2f (-0.390180644) = .ok (-1597)) ∧
    float2fixed 1.40200 = .ok (5743 * 256) ∧ float2fixed 0.71414 = .ok (2925 * 256) ∧ float2fixed 0.34414 = .ok (1410 * 256) ∧
      float2fixed 1.77200 = .ok (7258 * 256) := by
  decide +kernel

/-- C133: the inverse cosine transform of a block whose 64 coefficients (times their steps) are at most 2300 in size does not overflow, writes
exactly the 64 samples of the block, and each sample is the exact one (limited to 0..255) up to 0.617 and a 5900th of the sum of the sizes
of the coefficients. -/
theorem jpeg_idct {data : List Int} (hl : data.length = 64) (h : ∀ k < 64, |data.getD k 0| ≤ 2300)
    {out : Cells UInt8} {off stride : Nat} (hs : 8 ≤ stride) (ho : off + 7 * stride + 7 < out.length) :
    ∃ out', idct_block out off stride data = .ok out' ∧ out'.length = out.length ∧
      (∀ y < 8, ∀ x < 8, ∃ b : UInt8, out'[off + y * stride + x]? = some (some b) ∧
        |(b.toNat : ℝ) - limit (128 + idct (fun v u => (data.getD (8 * v + u) 0 : ℝ)) y x)| ≤
          0.617 + (∑ k ∈ Finset.range 64, |(data.getD k 0 : ℝ)|) / 5900) ∧
      ∀ p, (∀ y < 8, ∀ x < 8, p ≠ off + y * stride + x) → out'[p]? = out[p]? := by
  obtain ⟨o, e, h1, h2, h3⟩ := idct_block_ok hl (fun k hk => abs_le.1 (h k hk)) hs ho
  refine ⟨o, e, h1, fun y hy x hx => ⟨_, h2 y hy x hx, ?_⟩, h3⟩
  have := idctV_exact (fun k => data.getD k 0) hy hx
  rw [show (0.617 : ℝ) = 617 / 1000 by norm_num]
  exact stbClamp_near this

/-- A block to which the theorem applies: a mean of 100 above the middle and one wave. -/
example : (∀ k < 64, |([800, 0, 0, 0, 0, 0, 0, 0, 0, 120] ++ List.replicate 54 0 : List Int).getD k 0| ≤ 2300) ∧
    (idct_block (List.replicate 64 none) 0 8 ([800, 0, 0, 0, 0, 0, 0, 0, 0, 120] ++ List.replicate 54 0)).map (fun o => (o[0]?, o[63]?, o[7]?)) =
      .ok (some (some 255), some (some 255), some (some 199)) := by
  decide +kernel

/-- C134: for coefficients that a (corrupt) file can contain the transform overflows: it is undefined for the largest ones. -/
theorem jpeg_idct_overflows : ∃ data : List Int, data.length = 64 ∧ (∀ k < 64, |data.getD k 0| ≤ 32767) ∧
    idct_block (List.replicate 64 none) 0 8 data = .error .signedOverflow :=
  ⟨List.replicate 64 32767, by decide +kernel⟩

theorem jpeg_red_near (y cr : UInt8) : |((redB y cr).toNat : ℝ) - limit (redOf y.toNat cr.toNat)| ≤ 0.6 := by
  have h1 := y.toNat_lt
  have h3 := cr.toNat_lt
  unfold redB redOf
  refine stbClamp_near ?_
  generalize y.toNat = a at *
  generalize cr.toNat = c at *
  have e : ∃ q r : Int, ((a : Int) * 1048576 + 524288 + (c - 128) * 1470208) / 1048576 = q ∧ 0 ≤ r ∧ r < 1048576 ∧
      (a : Int) * 1048576 + 524288 + (c - 128) * 1470208 = 1048576 * q + r := ⟨_, _, rfl, Int.emod_nonneg _ (by norm_num), Int.emod_lt_of_pos _ (by norm_num),
        (Int.mul_ediv_add_emod _ _).symm⟩
  obtain ⟨q, r, e1, h4, h5, e2⟩ := e
  rw [e1]
  have e2' : (a : ℝ) * 1048576 + 524288 + (c - 128) * 1470208 = 1048576 * q + r := by exact_mod_cast e2
  have h4' : (0 : ℝ) ≤ r := by exact_mod_cast h4
  have h5' : (r : ℝ) < 1048576 := by exact_mod_cast h5
  have h6 : (c : ℝ) ≤ 255 := by exact_mod_cast (show c ≤ 255 by omega)
  have h7 : (0 : ℝ) ≤ c := by positivity
  rw [abs_le]
  constructor <;> linarith

theorem jpeg_blue_near (y cb : UInt8) : |((blueB y cb).toNat : ℝ) - limit (blueOf y.toNat cb.toNat)| ≤ 0.6 := by
  have h1 := y.toNat_lt
  have h3 := cb.toNat_lt
  unfold blueB blueOf
  refine stbClamp_near ?_
  generalize y.toNat = a at *
  generalize cb.toNat = c at *
  have e : ∃ q r : Int, ((a : Int) * 1048576 + 524288 + (c - 128) * 1858048) / 1048576 = q ∧ 0 ≤ r ∧ r < 1048576 ∧
      (a : Int) * 1048576 + 524288 + (c - 128) * 1858048 = 1048576 * q + r := ⟨_, _, rfl, Int.emod_nonneg _ (by norm_num), Int.emod_lt_of_pos _ (by norm_num),
        (Int.mul_ediv_add_emod _ _).symm⟩
  obtain ⟨q, r, e1, h4, h5, e2⟩ := e
  rw [e1]
  have e2' : (a : ℝ) * 1048576 + 524288 + (c - 128) * 1858048 = 1048576 * q + r := by exact_mod_cast e2
  have h4' : (0 : ℝ) ≤ r := by exact_mod_cast h4
  have h5' : (r : ℝ) < 1048576 := by exact_mod_cast h5
  have h6 : (c : ℝ) ≤ 255 := by exact_mod_cast (show c ≤ 255 by omega)
  have h7 : (0 : ℝ) ≤ c := by positivity
  rw [abs_le]
  constructor <;> linarith

theorem jpeg_green_near (y cb cr : UInt8) : |((greenB y cb cr).toNat : ℝ) - limit (greenOf y.toNat cb.toNat cr.toNat)| ≤ 0.6 := by
  have h1 := y.toNat_lt
  have h2 := cb.toNat_lt
  have h3 := cr.toNat_lt
  unfold greenB greenOf
  refine stbClamp_near ?_
  generalize y.toNat = a at *
  generalize cb.toNat = b at *
  generalize cr.toNat = c at *
  obtain ⟨m, s, e3, h8, h9, e4⟩ : ∃ m s : Int, (-(((b : Int) - 128) * 360960)) / 65536 = m ∧ 0 ≤ s ∧ s < 65536 ∧
      -(((b : Int) - 128) * 360960) = 65536 * m + s := ⟨_, _, rfl, Int.emod_nonneg _ (by norm_num), Int.emod_lt_of_pos _ (by norm_num),
        (Int.mul_ediv_add_emod _ _).symm⟩
  rw [e3]
  obtain ⟨q, r, e1, h4, h5, e2⟩ : ∃ q r : Int, ((a : Int) * 1048576 + 524288 - (c - 128) * 748800 + m * 65536) / 1048576 = q ∧ 0 ≤ r ∧ r < 1048576 ∧
      (a : Int) * 1048576 + 524288 - (c - 128) * 748800 + m * 65536 = 1048576 * q + r := ⟨_, _, rfl, Int.emod_nonneg _ (by norm_num),
        Int.emod_lt_of_pos _ (by norm_num), (Int.mul_ediv_add_emod _ _).symm⟩
  rw [e1]
  have e2' : (a : ℝ) * 1048576 + 524288 - (c - 128) * 748800 + m * 65536 = 1048576 * q + r := by exact_mod_cast e2
  have e4' : -(((b : ℝ) - 128) * 360960) = 65536 * m + s := by exact_mod_cast e4
  have h4' : (0 : ℝ) ≤ r := by exact_mod_cast h4
  have h5' : (r : ℝ) < 1048576 := by exact_mod_cast h5
  have h8' : (0 : ℝ) ≤ s := by exact_mod_cast h8
  have h9' : (s : ℝ) < 65536 := by exact_mod_cast h9
  have h6 : (c : ℝ) ≤ 255 := by exact_mod_cast (show c ≤ 255 by omega)
  have h7 : (0 : ℝ) ≤ c := by positivity
  have h6' : (b : ℝ) ≤ 255 := by exact_mod_cast (show b ≤ 255 by omega)
  have h7' : (0 : ℝ) ≤ b := by positivity
  rw [abs_le]
  constructor
  · rw [neg_le_sub_iff_le_add]
    norm_num
    linarith
  · rw [sub_le_iff_le_add]
    norm_num
    linarith

/-- C135: a line of samples is converted without overflow to pixels of four bytes, of which each is the exact colour of T.871 (limited to 0..255) up to 0.6
and the last is 255; nothing else is written. -/
theorem jpeg_colours {y cb cr : Nat → CM UInt8} {Y B R : Nat → UInt8} {count : Nat} (hy : ∀ i < count, y i = .ok (Y i))
    (hb : ∀ i < count, cb i = .ok (B i)) (hr : ∀ i < count, cr i = .ok (R i)) {out : Cells UInt8} {off : Nat} (ho : off + 4 * count ≤ out.length) :
    ∃ out', ycc_row out off y cb cr count = .ok out' ∧ out'.length = out.length ∧ (∀ p, (p < off ∨ off + 4 * count ≤ p) → out'[p]? = out[p]?) ∧
      ∀ x < count, ∃ r g b : UInt8, out'[off + 4 * x]? = some (some r) ∧ out'[off + 4 * x + 1]? = some (some g) ∧ out'[off + 4 * x + 2]? = some (some b) ∧
        out'[off + 4 * x + 3]? = some (some 255) ∧
        |(r.toNat : ℝ) - limit (redOf (Y x).toNat (R x).toNat)| ≤ 0.6 ∧
        |(g.toNat : ℝ) - limit (greenOf (Y x).toNat (B x).toNat (R x).toNat)| ≤ 0.6 ∧
        |(b.toNat : ℝ) - limit (blueOf (Y x).toNat (B x).toNat)| ≤ 0.6 := by
  obtain ⟨o, e, h1, h2, h3⟩ := ycc_row_ok hy hb hr ho
  refine ⟨o, e, h1, h2, fun x hx => ⟨_, _, _, (h3 x hx).1, (h3 x hx).2.1, (h3 x hx).2.2.1, (h3 x hx).2.2.2, ?_, ?_, ?_⟩⟩
  · exact jpeg_red_near _ _
  · exact jpeg_green_near _ _ _
  · exact jpeg_blue_near _ _

/-- One pixel: a strong red. -/
example : (ycc_row (List.replicate 4 none) 0 (fun _ => .ok 76) (fun _ => .ok 85) (fun _ => .ok 255) 1) =
    .ok [some 254, some 0, some 0, some 255] := by decide +kernel

/-- A rounded quotient of naturals that fits into a byte. -/
theorem byte_round {t n : Nat} (hn : 0 < n) (h : t ≤ 255 * (2 * n)) :
    |((UInt8.ofNat ((t + n) / (2 * n))).toNat : ℝ) - (t : ℝ) / (2 * n)| ≤ 1 / 2 := by
  have h1 : (t + n) / (2 * n) ≤ 255 := by
    rw [← Nat.lt_succ_iff, Nat.div_lt_iff_lt_mul (by omega)]
    omega
  rw [UInt8.toNat_ofNat', Nat.mod_eq_of_lt (by omega)]
  have := round_div (t : Int) (n := (n : Int)) (by exact_mod_cast hn)
  have e : (((t : Int) + n) / (2 * n) : Int) = (((t + n) / (2 * n) : Nat) : Int) := by push_cast; rfl
  rw [e, Int.cast_natCast, Int.cast_natCast, Int.cast_natCast] at this
  exact this

/-- C136: a component with half as many samples in both directions is enlarged by interpolation: near row `N`, far row `F`, `w` samples each; every one of
the `2 w` samples that are written is the value interpolated in both directions, up to one half. -/
theorem jpeg_enlarge_both {near far : Nat → CM UInt8} {N F : Nat → UInt8} {w : Nat} (hw : 1 ≤ w) (hn : ∀ i < w, near i = .ok (N i))
    (hf : ∀ i < w, far i = .ok (F i)) {out : Cells UInt8} (ho : 2 * w ≤ out.length) :
    ∃ out', resample_row_hv_2 out near far w = .ok out' ∧ out'.length = out.length ∧ ∀ x < 2 * w, ∃ b : UInt8, out'[x]? = some (some b) ∧
      |(b.toNat : ℝ) - between w (fun i => 3 / 4 * (N i).toNat + 1 / 4 * (F i).toNat) x| ≤ 1 / 2 := by
  obtain ⟨o, e, h1, h2⟩ := hv_2_ok hw hn hf ho
  refine ⟨o, e, h1, fun x hx => ⟨_, h2 x hx, ?_⟩⟩
  have a1 := (N (x / 2)).toNat_lt
  have a2 := (F (x / 2)).toNat_lt
  have a3 := (N (beyond w x)).toNat_lt
  have a4 := (F (beyond w x)).toNat_lt
  have := byte_round (t := 3 * (3 * (N (x / 2)).toNat + (F (x / 2)).toNat) + (3 * (N (beyond w x)).toNat + (F (beyond w x)).toNat)) (n := 8) (by omega) (by omega)
  unfold upByte between
  refine le_of_eq_of_le ?_ this
  congr 2
  push_cast
  ring

/-- The same for half as many rows. -/
theorem jpeg_enlarge_rows {near far : Nat → CM UInt8} {N F : Nat → UInt8} {w : Nat} (hn : ∀ i < w, near i = .ok (N i))
    (hf : ∀ i < w, far i = .ok (F i)) {out : Cells UInt8} (ho : w ≤ out.length) :
    ∃ out', resample_row_v_2 out near far w = .ok out' ∧ out'.length = out.length ∧ ∀ x < w, ∃ b : UInt8, out'[x]? = some (some b) ∧
      |(b.toNat : ℝ) - (3 / 4 * (N x).toNat + 1 / 4 * (F x).toNat)| ≤ 1 / 2 := by
  obtain ⟨o, e, h1, h2⟩ := v_2_ok hn hf ho
  refine ⟨o, e, h1, fun x hx => ⟨_, h2 x hx, ?_⟩⟩
  have a1 := (N x).toNat_lt
  have a2 := (F x).toNat_lt
  have := byte_round (t := 3 * (N x).toNat + (F x).toNat) (n := 2) (by omega) (by omega)
  refine le_of_eq_of_le ?_ this
  congr 2
  push_cast
  ring

/-- The same for half as many columns, except for one position: the last but one. -/
theorem jpeg_enlarge_columns_partial {input : Nat → CM UInt8} {N : Nat → UInt8} {w : Nat} (hw : 1 ≤ w) (hn : ∀ i < w, input i = .ok (N i))
    {out : Cells UInt8} (ho : 2 * w ≤ out.length) :
    ∃ out', resample_row_h_2 out input w = .ok out' ∧ out'.length = out.length ∧ ∀ x < 2 * w, ∃ b : UInt8, out'[x]? = some (some b) ∧
      ((w = 1 ∨ x ≠ 2 * w - 2) → |(b.toNat : ℝ) - between w (fun i => (N i).toNat) x| ≤ 1 / 2) := by
  obtain ⟨o, e, h1, h2⟩ := h_2_ok hw hn ho
  refine ⟨o, e, h1, fun x hx => ⟨_, h2 x hx, fun hx' => ?_⟩⟩
  have a1 := (N (x / 2)).toNat_lt
  have a2 := (N (beyond w x)).toNat_lt
  have := byte_round (t := 3 * (N (x / 2)).toNat + (N (beyond w x)).toNat) (n := 2) (by omega) (by omega)
  unfold hByte between
  rw [if_neg (by omega)]
  refine le_of_eq_of_le ?_ this
  congr 2
  push_cast
  ring

/-- At that position the weights of the two samples are exchanged: between 0 and 255 the code writes 64 where the interpolation is 191.25. -/
theorem jpeg_enlarge_columns_wrong : ∃ N : Nat → UInt8, (resample_row_h_2 (List.replicate 4 none) (fun i => .ok (N i)) 2).map (fun o => o[2]?) = .ok (some (some 64)) ∧
    between 2 (fun i => (N i).toNat) 2 = 191.25 := by
  refine ⟨fun i => if i = 0 then 0 else 255, by decide +kernel, ?_⟩
  have e : ((255 : UInt8).toNat : ℝ) = 255 := by norm_cast
  simp only [between, beyond]
  norm_num
  rw [e]
  norm_num

/-- Two rows of two samples. -/
example : resample_row_hv_2 (List.replicate 4 none) (fun i => .ok (if i = 0 then 0 else 200)) (fun _ => .ok 100) 2 =
    .ok [some 25, some 63, some 138, some 175] := by decide +kernel

end FlatCV.Props
