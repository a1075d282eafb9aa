/-
Radii so small that the variance vanishes: the only kernel entry is NaN.
-/
import Verif.Lemmas.BlurCall

namespace FlatCV

open Model

theorem tiny_of_vanishes {r : ℚ} (hv : SigmaVanishes r) : r < 1 / 2 ^ 70 := by
  by_contra h
  exact not_vanishes (not_lt.1 h) hv

theorem tiny_kernel_size {r : ℚ} (h0 : 0 < r) (ht : r < 1 / 2 ^ 70) :
    (Dbl.add Fmt.b64 (Dbl.mul Fmt.b64 (.fin 2) (.fin r)) (.fin 1)).toU32 = .ok 1 := by
  have ht' : r < 1 / 8 := lt_trans ht (by norm_num)
  have e1 : Fmt.b64.lift (2 * r) = .fin (Fmt.b64.rnd (2 * r)) := by
    apply lift64 (k := 1) (by norm_num)
    rw [abs_of_nonneg (by linarith)]
    norm_num; linarith
  have hhalf : Fmt.b64.rnd (1 / 2) = 1 / 2 := by
    have := rnd64_inv_pow (k := 1) (by norm_num)
    simpa using this
  have h32 : Fmt.b64.rnd (3 / 2) = 3 / 2 := by
    have := rnd_exact Fmt.b64 (m := 3) (e := -1) (by decide) (by norm_num [Fmt.b64])
    norm_num at this
    exact this
  set z := Fmt.b64.rnd (2 * r) with hz
  have hz2 : z ≤ 1 / 2 := rnd_le _ (by linarith) hhalf
  have hz0 : 0 ≤ z := rnd_nonneg _ (by linarith)
  have e2 : Fmt.b64.lift (z + 1) = .fin (Fmt.b64.rnd (z + 1)) := by
    apply lift64 (k := 1) (by norm_num)
    rw [abs_of_nonneg (by linarith)]
    norm_num; linarith
  set y := Fmt.b64.rnd (z + 1) with hy
  have hy1 : ((1 : ℤ) : ℚ) ≤ y := le_rnd _ (by push_cast; linarith) (rnd64_int (by norm_num))
  have hy2 : y ≤ 3 / 2 := rnd_le _ (by linarith) h32
  have hf : ⌊y⌋ = 1 := by
    rw [Int.floor_eq_iff]
    push_cast at hy1 ⊢
    constructor <;> linarith
  have hy0 : 0 ≤ y := by push_cast at hy1; linarith
  simp only [Dbl.mul, e1, Dbl.add, e2, Dbl.toU32, castU32]
  rw [castInt_ok (by rw [trunc_nonneg hy0, hf]; norm_num) (by rw [trunc_nonneg hy0, hf]; norm_num),
    trunc_nonneg hy0, hf]
  rfl

theorem tiny_sigma {r : ℚ} (h0 : 0 < r) (hv : SigmaVanishes r) :
    ∃ s, blurSigma (.fin r) = .ok (.fin 0, s) := by
  have ht := tiny_of_vanishes hv
  have ht' : r < 1 / 8 := lt_trans ht (by norm_num)
  obtain ⟨c, hc, -, -⟩ := root_ok
  have e1 : Dbl.div Fmt.b64 (.fin r) (.fin 3) = .ok (.fin (Fmt.b64.rnd (r / 3))) := by
    rw [div_fin (by norm_num), lift64 (k := 1) (by norm_num)]
    rw [abs_of_pos (by linarith)]
    norm_num
    linarith
  have hone : Fmt.b64.rnd ((1 : ℤ) : ℚ) = ((1 : ℤ) : ℚ) := rnd64_int (by norm_num)
  have hone' : Fmt.b32.rnd ((1 : ℤ) : ℚ) = ((1 : ℤ) : ℚ) := rnd32_int (by norm_num)
  have hq : Fmt.b64.rnd (r / 3) ≤ ((1 : ℤ) : ℚ) := rnd_le _ (by push_cast; linarith) hone
  have hq0 : 0 ≤ Fmt.b64.rnd (r / 3) := rnd_nonneg _ (by linarith)
  have e2 : Fmt.b32.lift (Fmt.b64.rnd (r / 3)) = .fin (sigma32 r) := by
    apply lift32 (k := 1) (by norm_num)
    rw [abs_of_nonneg hq0]
    push_cast at hq
    norm_num
    linarith
  have hs0 := sigma32_nonneg h0.le
  have hs1 : sigma32 r ≤ ((1 : ℤ) : ℚ) := rnd_le _ hq hone'
  push_cast at hs1
  have e3 : Fmt.b32.lift (sigma32 r * sigma32 r) = .fin 0 := by
    rw [lift32 (k := 1) (by norm_num)]
    · rw [show Fmt.b32.rnd (sigma32 r * sigma32 r) = 0 from hv]
    · rw [abs_of_nonneg (mul_nonneg hs0 hs0)]
      norm_num
      nlinarith
  have e4 : Fmt.b32.lift (2 * 0) = .fin 0 := by
    rw [mul_zero, lift32 (k := 1) (by norm_num) (by simp), rnd_zero]
  unfold blurSigma
  rw [e1]
  simp only [ok_bind, Dbl.conv, e2, hc, Dbl.mul, e3, e4]
  exact ⟨_, rfl⟩

theorem tiny_weight (ex : ℚ → ℚ) {r : ℚ} (h0 : 0 < r) (ht : r < 1 / 2 ^ 70) (s : Dbl) :
    blurWeight ex (.fin r) (.fin 0) s 0 = .ok .nan := by
  have ht' : r < 1 / 8 := lt_trans ht (by norm_num)
  have hhalf : Fmt.b64.rnd (1 / 2) = 1 / 2 := by
    have := rnd64_inv_pow (k := 1) (by norm_num)
    simpa using this
  obtain ⟨e1, hb⟩ := sub_radius h0.le (by linarith) (j := 0) (by omega)
  have hq : |Fmt.b64.rnd (((0 : ℕ) : ℚ) - r)| ≤ 1 / 2 := by
    apply rnd_abs_le _ _ hhalf
    rw [Nat.cast_zero, zero_sub, abs_neg, abs_of_pos h0]
    linarith
  have htr : trunc (Fmt.b64.rnd (((0 : ℕ) : ℚ) - r)) = 0 := by
    rw [abs_le] at hq
    generalize Fmt.b64.rnd (((0 : ℕ) : ℚ) - r) = q at hq
    unfold trunc
    split_ifs with h
    · rw [Int.floor_eq_iff]; push_cast; constructor <;> linarith
    · rw [Int.ceil_eq_iff]; push_cast; constructor <;> linarith
  unfold blurWeight
  rw [e1, toI32_fin (hb.trans (by norm_num)), htr]
  simp only [ok_bind]
  rw [i32_ok (by decide)]
  simp only [ok_bind]
  rw [i32_ok (by decide)]
  simp only [ok_bind, Dbl.conv]
  have e3 : Fmt.b32.lift ((-(0 * 0) : ℤ) : ℚ) = .fin 0 := by
    norm_num
    rw [lift32 (k := 1) (by norm_num) (by simp), rnd_zero]
  rw [e3]
  simp only [Dbl.div, if_true, ok_bind, expD]
  rfl

theorem tiny_kernel (ex : ℚ → ℚ) {r : ℚ} (h0 : 0 < r) (hv : SigmaVanishes r) :
    blurKernel ex (.fin r) 1 [none] = .ok [some .nan] := by
  obtain ⟨s, e⟩ := tiny_sigma h0 hv
  unfold blurKernel
  rw [e]
  simp only [ok_bind]
  rw [forU32_eq (by norm_num), forN_succ]
  simp [forN, tiny_weight ex h0 (tiny_of_vanishes hv) s, wr]

/-- The first pixel converts NaN to a byte. -/
theorem tiny_rows {w h len : ℕ} {d : List UInt8} (hw : 0 < w) (hh : 0 < h) (hw' : IsU32 w) (hh' : IsU32 h)
    (hd : 4 ≤ d.length) (hl : 4 ≤ len) {r : ℚ} (h0 : 0 < r) (ht : r < 1 / 2 ^ 70) (out : Cells UInt8) :
    blurRows w h len r [some .nan] d out = .error .castRange := by
  have ht' : r < 1 / 8 := lt_trans ht (by norm_num)
  unfold IsU32 at hw' hh'
  unfold blurRows
  rw [forU32_eq hh']
  apply forN_err0 hh
  rw [forU32_eq hw']
  apply forN_err0 hw
  have hf : ⌊r⌋ = 0 := by rw [Int.floor_eq_iff]; push_cast; constructor <;> linarith
  have e1 : castI32 (-r) = .ok 0 := by
    rw [castI32_ok (by rw [abs_neg, abs_of_pos h0]; linarith)]
    congr 1
    unfold trunc
    rw [if_neg (by linarith), Int.ceil_neg, hf]
    rfl
  have e2 : castI32 r = .ok 0 := by
    rw [castI32_ok (by rw [abs_of_pos h0]; linarith), trunc_nonneg h0.le, hf]
  obtain ⟨a0, a1, a2, a3, d', rfl⟩ : ∃ a0 a1 a2 a3 d', d = a0 :: a1 :: a2 :: a3 :: d' := by
    match d, hd with
    | a0 :: a1 :: a2 :: a3 :: d', _ => exact ⟨a0, a1, a2, a3, d', rfl⟩
  have hw0 : ¬ w = 0 := by omega
  have hl2 : ¬ len ≤ 2 := by omega
  unfold blurTaps
  rw [e1, e2, hf]
  simp [forN_succ, forN, i32OfU32, u32OfInt, u32, hw0, hl2, blurTap, rdZ, rd, rdIn, BlurAcc.zero, Dbl.add, Dbl.mul,
    blurStore, Dbl.div, Dbl.toU8]

end FlatCV
