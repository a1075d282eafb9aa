/-
C90–C92: black-and-white conversion of document photos.
-/
import Verif.Lemmas.BwSmart
import Mathlib.Analysis.Complex.ExponentialBounds

namespace FlatCV.Props
open FlatCV Model Spec

variable {P : Plat} {ex : ℚ → ℚ} {w h : Nat} {d : List UInt8}

/-- NULL data and empty images are rejected. -/
theorem bw_rejects {data : Option (List UInt8)} (hp : Heap) (dbl : Bool)
    (hbad : data = none ∨ w = 0 ∨ h = 0) :
    Rejects (fcv_bw_smart P ex w h dbl data) hp := by
  unfold Rejects
  cases data with
  | none => rfl
  | some d =>
    have h0 : w = 0 ∨ h = 0 := by simpa using hbad
    unfold fcv_bw_smart
    simp only [h0, if_true]
    rfl

/-! ### C90: each pixel is compared with its surroundings -/

/-- The whole call, for both kinds of threshold: `B` is the gray image blurred with a radius of a
tenth of the square root of the number of pixels, and Otsu's level `t` of the differences decides. -/
theorem bw_run (hex : ExpOk ex) (im : Img P w h 4 d) (hn : w * h ≤ 100000000) :
    ∃ (r : ℚ) (B : List UInt8) (t : Nat), |(r : ℝ) - Real.sqrt (w * h : ℕ) / 10| ≤ 1 / 2 ^ 40 ∧
      Averaged (fun k => gauss r (codeOffset r k)) ⌊r⌋.toNat w h (grayRGBA (w * h) (lumaAt d)) B ∧
      t < 256 ∧
      FirstMax (w * h) (fun i => contrast (lumaAt d i) (px1 4 B i 0))
        (Usable (w * h) fun i => contrast (lumaAt d i) (px1 4 B i 0)) t ∧
      ∀ dbl, Yields (fcv_bw_smart P ex w h dbl (some d))
        (grayRGBA (w * h) fun i => otsuValue dbl t (contrast (lumaAt d i) (px1 4 B i 0))) := by
  have hpos : 0 < w * h := Nat.mul_pos im.w_pos im.h_pos
  have hsz : w * h * 4 ≤ P.szMax := by rw [← im.len]; exact im.size
  have img : ∀ v : Nat → UInt8, Img P w h 4 (grayRGBA (w * h) v) := fun v =>
    ⟨im.w_pos, im.h_pos, im.w_u32, im.h_u32, by unfold grayRGBA; rw [mkPx_length],
      by unfold grayRGBA; rw [mkPx_length]; exact hsz⟩
  have hr0 : 1 / 16 ≤ radiusOf (w * h) := radiusOf_ge hpos
  obtain ⟨B, hy, ha⟩ := blur_run P hex (img (lumaAt d)) (by omega) (radiusOf_rep hn)
    (by linarith) (usual_radius (le_trans (by norm_num) hr0)) (radiusOf_le hn)
  obtain ⟨t, h1, h2, ho⟩ := otsu_correct (img fun i => contrast (lumaAt d i) (px1 4 B i 0)) (by omega)
  have hB : B.length = w * h * 4 := by obtain ⟨_, _, h, _⟩ := ha; exact h
  have el : ∀ i, i < w * h → lumaAt (grayRGBA (w * h) fun i => contrast (lumaAt d i) (px1 4 B i 0)) i =
      contrast (lumaAt d i) (px1 4 B i 0) := fun i hi => lumaAt_grayRGBA hi
  obtain ⟨t, ht, h1, h2⟩ := otsuLevel_ok (v := fun i => contrast (lumaAt d i) (px1 4 B i 0)) hpos (by omega)
  refine ⟨_, B, t, radiusOf_near hn, ha, h1, h2, ?_⟩
  intro dbl
  refine bw_returns im (by omega) (bwRadius_eq (by omega)) hB hy ?_
  have hh : histOf (w * h) (lumaAt (grayRGBA (w * h) fun i => contrast (lumaAt d i) (px1 4 B i 0))) =
      histOf (w * h) fun i => contrast (lumaAt d i) (px1 4 B i 0) := by
    unfold histOf
    apply List.map_congr_left
    intro l _
    rw [countP_congr fun i hi => by rw [el i hi]]
  have := otsu_at_level (img fun i => contrast (lumaAt d i) (px1 4 B i 0)) (by omega) (by rw [hh]; exact ht) dbl
  rw [show grayRGBA (w * h) (fun i => otsuValue dbl t
    (lumaAt (grayRGBA (w * h) fun i => contrast (lumaAt d i) (px1 4 B i 0)) i)) = _ from ?_] at this
  · exact this
  · unfold grayRGBA at el ⊢
    apply mkPx_congr
    intro i c hi _
    simp only [el i hi]

/-- C90: without double threshold every pixel is opaque and white exactly if the difference
between its luma and that of its blurred surroundings exceeds one level common to the image. -/
theorem bw_two_level (hex : ExpOk ex) (im : Img P w h 4 d) (hn : w * h ≤ 100000000) :
    ∃ (r : ℚ) (B : List UInt8) (t : UInt8), |(r : ℝ) - Real.sqrt (w * h : ℕ) / 10| ≤ 1 / 2 ^ 40 ∧
      Averaged (fun k => gauss r (codeOffset r k)) ⌊r⌋.toNat w h (grayRGBA (w * h) (lumaAt d)) B ∧
      Yields (fcv_bw_smart P ex w h false (some d)) (mkPx (w * h) 4 fun i c =>
        if c = 3 then 255 else if t < contrast (lumaAt d i) (px1 4 B i 0) then 255 else 0) := by
  obtain ⟨r, B, t, hr, ha, _, _, hy⟩ := bw_run hex im hn
  refine ⟨r, B, UInt8.ofNat t, hr, ha, ?_⟩
  have := hy false
  rw [show grayRGBA (w * h) (fun i => otsuValue false t (contrast (lumaAt d i) (px1 4 B i 0))) = _ from ?_] at this
  · exact this
  · unfold grayRGBA
    apply mkPx_congr
    intro i c _ hc
    by_cases h3 : c = 3
    · rw [if_neg (by omega), if_pos h3]
    · rw [if_pos (by omega), if_neg h3]
      rfl

/-- The difference is 127 where a pixel equals its surroundings and larger where it is brighter. -/
example : contrast 40 40 = 127 ∧ contrast 200 50 = 255 ∧ contrast 50 200 = 0 ∧ contrast 60 50 = 137 := by decide

/-- C90, smooth variant: opaque and gray; pixels with equal differences get equal values. -/
theorem bw_smooth_gray (hex : ExpOk ex) (im : Img P w h 4 d) (hn : w * h ≤ 100000000) :
    ∃ (B : List UInt8) (f : UInt8 → UInt8), Yields (fcv_bw_smart P ex w h true (some d))
        (grayRGBA (w * h) fun i => f (contrast (lumaAt d i) (px1 4 B i 0))) := by
  obtain ⟨r, B, t, hr, ha, _, _, hy⟩ := bw_run hex im hn
  exact ⟨B, otsuValue true t, hy true⟩

example : ∃ ex, ExpOk ex ∧ Img .lp64 2 1 4 whiteBlack ∧ 2 * 1 ≤ 100000000 := by
  obtain ⟨ex, hex⟩ := expOk_exists
  exact ⟨ex, hex, img_2x1 _ rfl, by norm_num⟩

/-! ### C91: a result for every image -/

/-- C91 as stated: NULL only when memory runs out. -/
def BwAnySize : Prop :=
  ∀ (P : Plat) (ex : ℚ → ℚ) (w h : Nat) (d : List UInt8) (dbl : Bool), ExpOk ex → Img P w h 4 d →
    w * h ≤ 2 ^ 30 → ∃ out, Yields (fcv_bw_smart P ex w h dbl (some d)) out

/-- C91 holds for up to 10^8 pixels. -/
theorem bw_any_size_partial (hex : ExpOk ex) (im : Img P w h 4 d) (hn : w * h ≤ 100000000) (dbl : Bool) :
    ∃ out, Yields (fcv_bw_smart P ex w h dbl (some d)) out ∧ out.length = w * h * 4 := by
  obtain ⟨r, B, t, hr, ha, _, _, hy⟩ := bw_run hex im hn
  exact ⟨_, hy dbl, by unfold grayRGBA; rw [mkPx_length]⟩

/-- Every larger image (up to 2^30 pixels) gives NULL, however much memory there is; nothing
stays allocated. -/
theorem bw_large_refused (im : Img P w h 4 d) (hn : 100000000 < w * h) (h30 : w * h ≤ 2 ^ 30) (dbl : Bool)
    (hp : Heap) :
    HOk (fcv_bw_smart P ex w h dbl (some d)) hp fun res h' =>
      res = none ∧ h'.live = hp.live ∧ h'.fails = hp.fails :=
  bw_refused im h30 (bwRadius_eq (by omega)) (radiusOf_gt hn) dbl hp

theorem bw_large_no_result (hex : ExpOk ex) (H : BwAnySize) {w : Nat} (hw : w = 16384) : False := by
  have im : Img .lp64 w w 4 (List.replicate (w * w * 4) 0) := by
    refine ⟨by omega, by omega, by unfold IsU32; omega, by unfold IsU32; omega, List.length_replicate, ?_⟩
    rw [List.length_replicate, hw]
    decide
  obtain ⟨out, hy⟩ := H .lp64 ex w w _ false hex im (by rw [hw]; norm_num)
  obtain ⟨b, h', e, -⟩ := hy.succeeds (hp := Heap.fresh) (fun _ => rfl)
  obtain ⟨res, h2, e2, hres, -⟩ := bw_large_refused (ex := ex) im (by rw [hw]; norm_num) (by rw [hw]; norm_num) false
    Heap.fresh
  rw [e] at e2
  cases e2
  cases hres

/-- C91 is false: 16384×16384 pixels. -/
theorem not_bwAnySize : ¬ BwAnySize := by
  intro H
  obtain ⟨ex, hex⟩ := expOk_exists
  exact bw_large_no_result hex H rfl

/-! ### C92: a blank page stays blank -/

/-- In an image of one gray value no level separates anything. -/
theorem uniform_not_usable {n : Nat} (hn0 : 0 < n) {v : Nat → UInt8} {a : UInt8} (hv : ∀ i, i < n → v i = a)
    (l : Nat) : ¬ Usable n v l := by
  have hc : ∀ l, freq n v l = if a.toNat = l then 1 else 0 := by
    intro l
    have hpos : (0 : ℚ) < r32 n := by
      have : r32 ((1 : ℤ) : ℚ) = 1 := by exact_mod_cast rnd32_int (m := 1) (by norm_num)
      have h2 : r32 ((1 : ℤ) : ℚ) ≤ r32 (n : ℚ) := rnd_mono _ (by push_cast; exact_mod_cast hn0)
      linarith
    unfold freq
    split_ifs with h
    · rw [countP_true (fun i hi => by rw [hv i hi]; simpa using h), div_self hpos.ne']
      exact_mod_cast rnd32_int (m := 1) (by norm_num)
    · rw [countP_false (fun i hi => by rw [hv i hi]; simpa using h)]
      simp [r32, rnd_zero]
  have hs : ∀ k, sum32 (freq n v) k = if a.toNat < k then 1 else 0 := by
    intro k
    induction k with
    | zero => rfl
    | succ k ih =>
      unfold sum32
      rw [ih, hc]
      have r1 : r32 1 = 1 := by exact_mod_cast rnd32_int (m := 1) (by norm_num)
      split_ifs <;> first | omega | simp [r1, r32, rnd_zero]
  unfold Usable weight
  rw [hs]
  split_ifs <;> simp

theorem uniform_level {n : Nat} (hn0 : 0 < n) {v : Nat → UInt8} {a : UInt8} (hv : ∀ i, i < n → v i = a) {t : Nat}
    (hm : FirstMax n v (Usable n v) t) : t = 0 := by
  rcases hm with ⟨h, -⟩ | ⟨-, h, -⟩
  · exact h
  · exact (uniform_not_usable hn0 hv t h).elim

/-- C92 as stated: a page of one gray value gives an image of one colour. -/
def BwBlankStaysBlank : Prop :=
  ∀ (P : Plat) (ex : ℚ → ℚ) (w h : Nat) (d : List UInt8) (v : UInt8), ExpOk ex → Img P w h 4 d →
    w * h ≤ 100000000 → (∀ i, i < w * h → lumaAt d i = v) →
    ∃ a : UInt8, Yields (fcv_bw_smart P ex w h false (some d)) (grayRGBA (w * h) fun _ => a)

/-- C92 holds for a black page, which comes out white. -/
theorem bw_black_page_partial (hex : ExpOk ex) (im : Img P w h 4 d) (hn : w * h ≤ 100000000)
    (hd : ∀ i, i < w * h → lumaAt d i = 0) :
    Yields (fcv_bw_smart P ex w h false (some d)) (grayRGBA (w * h) fun _ => 255) := by
  obtain ⟨r, B, t, hr, ha, ht, hm, hy⟩ := bw_run hex im hn
  have hpos : 0 < w * h := Nat.mul_pos im.w_pos im.h_pos
  have hB : ∀ i, i < w * h → px1 4 B i 0 = 0 := by
    intro i hi
    have hx : i % w < w := Nat.mod_lt _ im.w_pos
    have hyh : i / w < h := Nat.div_lt_of_lt_mul hi
    have := (averaged_bounds (fun k => Real.exp_pos _) ha hx hyh (c := 0) (by omega) (lo := 0) (hi := 0) (by
      intro x' y' h1 h2 _ _ _ _
      have : px w 4 (grayRGBA (w * h) (lumaAt d)) x' y' 0 = px1 4 (grayRGBA (w * h) (lumaAt d)) (y' * w + x') 0 := rfl
      rw [this]
      unfold grayRGBA
      have hlt := idx_lt h1 h2
      rw [px1_mkPx hlt (by omega)]
      simp [hd _ hlt])).2
    have e : px w 4 B (i % w) (i / w) 0 = px1 4 B i 0 := by
      unfold px px1
      rw [Nat.div_add_mod' i w]
    rw [e] at this
    exact UInt8.toNat_inj.1 (by simpa using this)
  have hc : ∀ i, i < w * h → contrast (lumaAt d i) (px1 4 B i 0) = 127 := by
    intro i hi
    rw [hd i hi, hB i hi]
    rfl
  have t0 := uniform_level hpos hc hm
  subst t0
  have := hy false
  rw [show grayRGBA (w * h) (fun i => otsuValue false 0 (contrast (lumaAt d i) (px1 4 B i 0))) = _ from ?_] at this
  · exact this
  · unfold grayRGBA
    apply mkPx_congr
    intro i c hi _
    simp only [hc i hi]
    rfl

example : Img .lp64 2 1 4 [0, 0, 0, 255, 0, 0, 0, 9] ∧
    ∀ i, i < 2 * 1 → lumaAt [0, 0, 0, 255, 0, 0, 0, 9] i = 0 := by
  refine ⟨img_2x1 _ rfl, ?_⟩
  intro i hi
  rcases (show i = 0 ∨ i = 1 by omega) with rfl | rfl <;> decide +kernel

/-- The argument at which the blur of radius 1 calls `exp`. -/
def argOne : ℚ := -9437183 / 2097152

theorem exp_argOne (hex : ExpOk ex) :
    1110900170 / 100000000000 ≤ ex argOne ∧ ex argOne ≤ 1110900205 / 100000000000 := by
  have e1 : Real.exp ((argOne : ℚ) : ℝ) ^ 2 * Real.exp 1 ^ 9 = Real.exp (1 / 1048576) := by
    rw [← Real.exp_nat_mul, ← Real.exp_nat_mul, ← Real.exp_add]
    congr 1
    unfold argOne
    push_cast
    norm_num
  have l1 := Real.add_one_le_exp (1 / 1048576 : ℝ)
  have u1 : Real.exp (1 / 1048576) * (1 - 1 / 1048576) ≤ 1 := by
    have h := Real.add_one_le_exp (-(1 / 1048576) : ℝ)
    have hm : Real.exp (1 / 1048576) * Real.exp (-(1 / 1048576)) = 1 := by
      rw [← Real.exp_add, add_neg_cancel, Real.exp_zero]
    have h4 : Real.exp (1 / 1048576) * (1 - 1 / 1048576) ≤
        Real.exp (1 / 1048576) * Real.exp (-(1 / 1048576)) :=
      mul_le_mul_of_nonneg_left (by linarith) (Real.exp_pos _).le
    linarith
  have g : (8103083923 / 1000000 : ℝ) ≤ Real.exp 1 ^ 9 ∧ Real.exp 1 ^ 9 ≤ 8103083932 / 1000000 := by
    constructor
    · refine le_trans (b := (2.7182818283 : ℝ) ^ 9) (by norm_num) ?_
      exact pow_le_pow_left₀ (by norm_num) Real.exp_one_gt_d9.le _
    · refine le_trans (b := (2.7182818286 : ℝ) ^ 9) ?_ (by norm_num)
      exact pow_le_pow_left₀ (Real.exp_pos _).le Real.exp_one_lt_d9.le _
  have ha := hex.acc argOne (by unfold argOne; norm_num) (by unfold argOne; norm_num)
  have y0 := Real.exp_pos ((argOne : ℚ) : ℝ)
  generalize Real.exp ((argOne : ℚ) : ℝ) = y at *
  generalize Real.exp 1 ^ 9 = G at *
  generalize Real.exp (1 / 1048576) = D at *
  have ylo : (1110900175 / 100000000000 : ℝ) ≤ y := by
    by_contra hc
    have hc := not_le.1 hc
    have h2 : y ^ 2 < (1110900175 / 100000000000) ^ 2 := by nlinarith
    have h3 : y ^ 2 * G ≤ (1110900175 / 100000000000) ^ 2 * (8103083932 / 1000000) :=
      mul_le_mul h2.le g.2 (by linarith [g.1]) (by positivity)
    norm_num at h3 l1
    linarith
  have yhi : y ≤ (1110900200 / 100000000000 : ℝ) := by
    by_contra hc
    have hc := not_le.1 hc
    have h2 : (1110900200 / 100000000000 : ℝ) ^ 2 < y ^ 2 := by nlinarith
    have h3 : (1110900200 / 100000000000 : ℝ) ^ 2 * (8103083923 / 1000000) ≤ y ^ 2 * G :=
      mul_le_mul h2.le g.1 (by norm_num) (by positivity)
    norm_num at h3 u1
    linarith
  rw [abs_le] at ha
  have c1 : ((1110900170 / 100000000000 : ℚ) : ℝ) ≤ (ex argOne : ℝ) := by
    push_cast
    linarith [ha.1]
  have c2 : (ex argOne : ℝ) ≤ ((1110900205 / 100000000000 : ℚ) : ℝ) := by
    push_cast
    linarith [ha.2]
  exact ⟨Rat.cast_le.1 c1, Rat.cast_le.1 c2⟩

/-- Any value in that range gives the same kernel entry. -/
theorem weight_argOne {q : ℚ} (h1 : 1110900170 / 100000000000 ≤ q) (h2 : q ≤ 1110900205 / 100000000000) :
    (Dbl.div Fmt.b64 (.fin q) (.fin (7009041 / 8388608))).map (Dbl.conv Fmt.b32) =
      .ok (.fin (14275989 / 1073741824)) := by
  have hs : (0 : ℚ) < 7009041 / 8388608 := by norm_num
  have k1 : Fmt.b32.rnd (Fmt.b64.rnd ((1110900170 / 100000000000 : ℚ) / (7009041 / 8388608))) =
    14275989 / 1073741824 := by decide +kernel
  have k2 : Fmt.b32.rnd (Fmt.b64.rnd ((1110900205 / 100000000000 : ℚ) / (7009041 / 8388608))) =
    14275989 / 1073741824 := by decide +kernel
  have b1 : Fmt.b32.rnd (Fmt.b64.rnd (q / (7009041 / 8388608))) = 14275989 / 1073741824 := by
    apply le_antisymm
    · rw [← k2]
      exact rnd_mono _ (rnd_mono _ (div_le_div_of_nonneg_right h2 hs.le))
    · rw [← k1]
      exact rnd_mono _ (rnd_mono _ (div_le_div_of_nonneg_right h1 hs.le))
  have hq : |q / (7009041 / 8388608)| ≤ 1 := by
    rw [abs_of_nonneg (by apply div_nonneg <;> linarith), div_le_one hs]
    linarith
  have r1 : |Fmt.b64.rnd (q / (7009041 / 8388608))| ≤ 2 ^ 1 := by
    refine (rnd_abs_le (f := Fmt.b64) (b := 1) hq ?_).trans (by norm_num)
    exact_mod_cast rnd64_int (m := 1) (by norm_num)
  have e : Dbl.div Fmt.b64 (.fin q) (.fin (7009041 / 8388608)) =
      if (7009041 / 8388608 : ℚ) = 0 then if q = 0 then .ok .nan else .error .fpSpecial
      else .ok (Fmt.b64.lift (q / (7009041 / 8388608))) := rfl
  rw [e, if_neg hs.ne', lift64 (k := 0) (by norm_num) (by simpa using hq)]
  show Except.ok (Fmt.b32.lift _) = _
  rw [lift32 (k := 1) (by norm_num) r1, b1]

/-- An `exp` that can be run. -/
def exOne (x : ℚ) : ℚ := if x = 0 then 1 else 1110900190 / 100000000000

theorem kernel_one (hex : ExpOk ex) (c : Cells Dbl) :
    blurKernel ex (.fin 1) 3 c = blurKernel exOne (.fin 1) 3 c := by
  have e : blurSigma (.fin 1) = .ok (.fin (7456541 / 33554432), .fin (7009041 / 8388608)) :=
    okVal_eq (by decide +kernel)
  have x0 : (Dbl.sub Fmt.b64 (.fin ((0 : ℕ) : ℚ)) (.fin 1)).toI32 = .ok (-1) := okVal_eq (by decide +kernel)
  have x1 : (Dbl.sub Fmt.b64 (.fin ((1 : ℕ) : ℚ)) (.fin 1)).toI32 = .ok 0 := okVal_eq (by decide +kernel)
  have x2 : (Dbl.sub Fmt.b64 (.fin ((2 : ℕ) : ℚ)) (.fin 1)).toI32 = .ok 1 := okVal_eq (by decide +kernel)
  have a0 : Dbl.div Fmt.b32 ((Dbl.fin ((0 : ℤ) : ℚ)).conv Fmt.b32) (.fin (7456541 / 33554432)) = .ok (.fin 0) :=
    okVal_eq (by decide +kernel)
  have a1 : Dbl.div Fmt.b32 ((Dbl.fin ((-1 : ℤ) : ℚ)).conv Fmt.b32) (.fin (7456541 / 33554432)) =
    .ok (.fin argOne) := okVal_eq (by decide +kernel)
  have w1 : ∀ ex : ℚ → ℚ, 1110900170 / 100000000000 ≤ ex argOne → ex argOne ≤ 1110900205 / 100000000000 →
      (do let v ← Dbl.div Fmt.b64 (.fin (ex argOne)) (.fin (7009041 / 8388608))
          pure (v.conv Fmt.b32) : CM Dbl) = .ok (.fin (14275989 / 1073741824)) := fun ex h1 h2 =>
    weight_argOne h1 h2
  have q1 := w1 ex (exp_argOne hex).1 (exp_argOne hex).2
  have q2 := w1 exOne (by decide +kernel) (by decide +kernel)
  have hw : ∀ i, i < 3 → blurWeight ex (.fin 1) (.fin (7456541 / 33554432)) (.fin (7009041 / 8388608)) i =
      blurWeight exOne (.fin 1) (.fin (7456541 / 33554432)) (.fin (7009041 / 8388608)) i := by
    intro i hi
    unfold blurWeight
    rcases (show i = 0 ∨ i = 1 ∨ i = 2 by omega) with rfl | rfl | rfl
    · simp only [x0, ok_bind, show i32 (-1 * -1) = .ok 1 from rfl, show i32 (-1) = .ok (-1) from rfl, a1, expD, q1, q2]
    · simp only [x1, ok_bind, show i32 (0 * 0) = .ok 0 from rfl, show i32 (-0) = .ok 0 from rfl, a0, expD, hex.zero,
        show exOne 0 = 1 from rfl]
    · simp only [x2, ok_bind, show i32 (1 * 1) = .ok 1 from rfl, show i32 (-1) = .ok (-1) from rfl, a1, expD, q1, q2]
  unfold blurKernel
  rw [e]
  simp only [ok_bind]
  rw [forU32_eq (by norm_num), forU32_eq (by norm_num)]
  apply forN_congr
  intro i hi a
  rw [hw i hi]

/-- A blank page of gray 246, 100 pixels wide and one pixel high. -/
def page246 : List UInt8 := grayRGBA 100 fun _ => 246

/-- Two functions `exp` with the same kernel give the same blur. -/
theorem blur_congr {ex' : ℚ → ℚ} {r : ℚ} {n : Nat}
    (hn : (Dbl.add Fmt.b64 (Dbl.mul Fmt.b64 (.fin 2) (.fin r)) (.fin 1)).toU32 = .ok n)
    (hk : ∀ c, blurKernel ex (.fin r) n c = blurKernel ex' (.fin r) n c) (data : Option (List UInt8)) :
    fcv_apply_gaussian_blur P ex w h (.fin r) data = fcv_apply_gaussian_blur P ex' w h (.fin r) data := by
  cases data with
  | none => rfl
  | some d =>
    unfold fcv_apply_gaussian_blur
    simp only [hn]
    split_ifs <;> try with_reducible rfl
    funext hp
    simp only [hm_bind]
    have u : ∀ hp, use [] (Except.ok n : CM Nat) hp = .ok (n, hp) := by
      intro hp
      simp [use, Except.map]
    cases malloc UInt8 (P.sz (P.sz (w * h) * 4)) hp with
    | error e => rfl
    | ok a =>
      obtain ⟨a, h1⟩ := a
      cases a with
      | none => rfl
      | some a =>
        simp only [hm_bind, u, hk]

set_option maxRecDepth 100000 in
theorem blur_page_runs :
    (match fcv_apply_gaussian_blur Plat.lp64 exOne 100 1 (.fin 1) (some page246) Heap.fresh with
      | .ok (some b, _) => b.cells ==
        (grayRGBA 100 fun i => if i = 0 ∨ i = 99 then 246 else 245).map some
      | _ => false) = true := by
  decide +kernel

theorem page_img : Img Plat.lp64 100 1 4 page246 :=
  ⟨by norm_num, by norm_num, by unfold IsU32; norm_num, by unfold IsU32; norm_num,
    by unfold page246 grayRGBA; rw [mkPx_length], by unfold page246 grayRGBA; rw [mkPx_length]; decide⟩

/-- The blurred page is darker in the middle than at the two ends. -/
theorem blur_page (hex : ExpOk ex) :
    Yields (fcv_apply_gaussian_blur Plat.lp64 ex 100 1 (.fin 1) (some page246))
      (grayRGBA 100 fun i => if i = 0 ∨ i = 99 then 246 else 245) := by
  obtain ⟨out, hy, -⟩ := blur_run Plat.lp64 hex page_img (by norm_num) (r := 1)
    (by exact_mod_cast rep64_int (z := 1) (by norm_num)) (by norm_num) (not_vanishes (by norm_num)) (by norm_num)
  have hr := blur_page_runs
  obtain ⟨b, hp', e, hc⟩ := hy.succeeds (hp := Heap.fresh) (fun _ => rfl)
  have ks : (Dbl.add Fmt.b64 (Dbl.mul Fmt.b64 (.fin 2) (.fin 1)) (.fin 1)).toU32 = .ok 3 :=
    okVal_eq (by decide +kernel)
  rw [← blur_congr ks (kernel_one hex), e] at hr
  have hb := (beq_iff_eq.1 hr).symm.trans hc
  rw [map_some_inj hb]
  exact hy

theorem radius_page : bwRadius 100 1 = .ok 1 := okVal_eq (by decide +kernel)

/-- Differences on the page: 127 at the two ends and 128 elsewhere. -/
def pageDiff (i : Nat) : UInt8 := if i = 0 ∨ i = 99 then 127 else 128

set_option maxRecDepth 10000 in
theorem page_level : otsuLevel (histOf 100 pageDiff) 100 = .ok 127 :=
  okVal_eq (by decide +kernel)

/-- The two ends of the blank page come out black, the rest white. -/
theorem bw_page (hex : ExpOk ex) :
    Yields (fcv_bw_smart Plat.lp64 ex 100 1 false (some page246))
      (grayRGBA (100 * 1) fun i => if i = 0 ∨ i = 99 then 0 else 255) := by
  have hl : ∀ i, i < 100 * 1 → lumaAt page246 i = 246 := fun i hi => lumaAt_grayRGBA (by omega)
  have e1 : grayRGBA (100 * 1) (lumaAt page246) = page246 := by
    unfold grayRGBA
    refine mkPx_congr (g := fun _ c => if c < 3 then 246 else 255) ?_
    intro i c hi _
    simp only [hl i hi]
  have e2 : grayRGBA (100 * 1) (fun i => contrast (lumaAt page246 i)
      (px1 4 (grayRGBA 100 fun i => if i = 0 ∨ i = 99 then 246 else 245) i 0)) = grayRGBA (100 * 1) pageDiff := by
    unfold grayRGBA
    apply mkPx_congr
    intro i c hi _
    have : px1 4 (mkPx 100 4 fun i c => if c < 3 then (if i = 0 ∨ i = 99 then (246 : UInt8) else 245) else 255) i 0 =
        if i = 0 ∨ i = 99 then (246 : UInt8) else 245 := by
      rw [px1_mkPx (by omega) (by omega)]
      simp
    simp only [this, hl i hi]
    unfold pageDiff
    split_ifs <;> rfl
  have im' : Img Plat.lp64 100 1 4 (grayRGBA (100 * 1) pageDiff) :=
    ⟨by norm_num, by norm_num, by unfold IsU32; norm_num, by unfold IsU32; norm_num,
      by unfold grayRGBA; rw [mkPx_length], by unfold grayRGBA; rw [mkPx_length]; decide⟩
  have hl' : ∀ i, i < 100 * 1 → lumaAt (grayRGBA (100 * 1) pageDiff) i = pageDiff i := fun i hi => lumaAt_grayRGBA hi
  have hh : histOf (100 * 1) (lumaAt (grayRGBA (100 * 1) pageDiff)) = histOf 100 pageDiff := by
    unfold histOf
    apply List.map_congr_left
    intro l _
    rw [countP_congr fun i hi => by rw [hl' i hi]]
  refine bw_returns (B := grayRGBA 100 fun i => if i = 0 ∨ i = 99 then 246 else 245) page_img (by norm_num)
    radius_page (by unfold grayRGBA; rw [mkPx_length]) (by rw [e1]; exact blur_page hex) ?_
  rw [e2]
  have := otsu_at_level im' (by norm_num) (by rw [hh]; exact page_level) false
  rw [show grayRGBA (100 * 1) (fun i => otsuValue false 127 (lumaAt (grayRGBA (100 * 1) pageDiff) i)) =
    grayRGBA (100 * 1) fun i => if i = 0 ∨ i = 99 then 0 else 255 from ?_] at this
  · exact this
  · unfold grayRGBA at hl' ⊢
    apply mkPx_congr
    intro i c hi _
    simp only [hl' i hi]
    unfold pageDiff
    split_ifs <;> rfl

/-- C92 is false: a blank page of gray 246 gets black ends. -/
theorem not_bwBlankStaysBlank : ¬ BwBlankStaysBlank := by
  intro H
  obtain ⟨ex, hex⟩ := expOk_exists
  obtain ⟨a, hy⟩ := H Plat.lp64 ex 100 1 page246 246 hex page_img (by norm_num)
    (fun i hi => lumaAt_grayRGBA (by omega))
  have he := Yields.unique hy (bw_page hex)
  have h0 := congrArg (fun l => px1 4 l 0 0) he
  have h1 := congrArg (fun l => px1 4 l 1 0) he
  unfold grayRGBA at h0 h1
  simp only [px1_mkPx (show 0 < 100 * 1 by omega) (show 0 < 4 by omega),
    px1_mkPx (show 1 < 100 * 1 by omega) (show 0 < 4 by omega)] at h0 h1
  rw [h0] at h1
  revert h1
  decide

end FlatCV.Props
