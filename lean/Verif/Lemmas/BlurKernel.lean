/-
The kernel of the Gaussian blur: no entry faults, used entries are close to the Gaussian.
-/
import Verif.Model.Blur
import Verif.Spec.Blur
import Verif.Lemmas.BlurNum
import Verif.Lemmas.Draw
import Mathlib.Analysis.Complex.ExponentialBounds

namespace FlatCV

open Model

theorem rnd64_rel {x : ℚ} (hx : x = 0 ∨ 1 / 2 ^ 1022 ≤ x) :
    x * (1 - 1 / 2 ^ 53) ≤ Fmt.b64.rnd x ∧ Fmt.b64.rnd x ≤ x * (1 + 1 / 2 ^ 53) := by
  rcases hx with rfl | hx
  · rw [rnd_zero]; norm_num
  · have h0 : 0 < x := lt_of_lt_of_le (by positivity) hx
    have := rnd_rel Fmt.b64 (x := x) (by
      rw [abs_of_pos h0]
      refine le_trans (le_of_eq ?_) hx
      rw [show Fmt.b64.emin + (Fmt.b64.p : ℤ) - 1 = -(1022 : ℕ) by decide, zpow_neg, zpow_natCast, one_div])
    rw [abs_of_pos h0, show Fmt.b64.p = 53 from rfl, abs_le] at this
    constructor
    · have h2 := this.1
      rw [div_eq_mul_one_div] at h2
      linarith
    · have h2 := this.2
      rw [div_eq_mul_one_div] at h2
      linarith

/-- Values `≥ 2^-100` are not tiny. -/
theorem rnd64_rel' {x : ℚ} (hx : 1 / 2 ^ 150 ≤ x) :
    x * (1 - 1 / 2 ^ 53) ≤ Fmt.b64.rnd x ∧ Fmt.b64.rnd x ≤ x * (1 + 1 / 2 ^ 53) := by
  apply rnd64_rel
  right
  refine le_trans ?_ hx
  exact one_div_le_one_div_of_le (by positivity) (pow_le_pow_right₀ (by norm_num) (by norm_num))

theorem rnd32_rel' {x : ℚ} (hx : 1 / 2 ^ 126 ≤ x) :
    x * (1 - 1 / 16777216) ≤ Fmt.b32.rnd x ∧ Fmt.b32.rnd x ≤ x * (1 + 1 / 16777216) := by
  have := rnd32_rel (x := x) (.inr hx)
  norm_num at this ⊢
  exact this

/-- Powers of two are representable. -/
theorem rnd32_inv_pow {k : ℕ} (hk : k ≤ 149) : Fmt.b32.rnd (1 / 2 ^ k) = 1 / 2 ^ k := by
  have := rnd_exact Fmt.b32 (m := 1) (e := -(k : ℤ)) (by
    have : Fmt.b32.emin = -149 := rfl
    omega) (by norm_num [Fmt.b32])
  rw [Int.cast_one, one_mul, zpow_neg, zpow_natCast, ← one_div] at this
  exact this

theorem rnd64_inv_pow {k : ℕ} (hk : k ≤ 1074) : Fmt.b64.rnd (1 / 2 ^ k) = 1 / 2 ^ k := by
  have := rnd_exact Fmt.b64 (m := 1) (e := -(k : ℤ)) (by
    have : Fmt.b64.emin = -1074 := rfl
    omega) (by norm_num [Fmt.b64])
  rw [Int.cast_one, one_mul, zpow_neg, zpow_natCast, ← one_div] at this
  exact this

/-- The constant `sqrt(2 * M_PI)` lies between 2 and 3. -/
theorem root_ok : ∃ c, f64sqrt (2 * mPi) = .ok c ∧ 2 ≤ c ∧ c ≤ 3 := by
  have h0 : (0 : ℚ) ≤ 2 * mPi := by norm_num [mPi]
  refine ⟨_, f64sqrt_ok h0, ?_, ?_⟩
  · exact_mod_cast le_f64sqrt (r := ((2 : ℤ) : ℚ)) (rep64_int (by norm_num)) (by norm_num)
      (by norm_num [mPi])
  · exact_mod_cast f64sqrt_le (r := ((3 : ℤ) : ℚ)) (rep64_int (by norm_num)) (by norm_num) h0
      (by norm_num [mPi])

theorem div_fin {f : Fmt} {a b : ℚ} (hb : b ≠ 0) : Dbl.div f (.fin a) (.fin b) = .ok (f.lift (a / b)) := by
  simp [Dbl.div, hb]

theorem sig_bounds {r : ℚ} (h1 : 1 ≤ r) :
    r / 3 * (1 - 1.01 / 16777216) ≤ sigma32 r ∧ sigma32 r ≤ r / 3 * (1 + 1.01 / 16777216) := by
  have hr3 : 1 / 3 ≤ r / 3 := by linarith
  have hp : 0 < r / 3 := lt_of_lt_of_le (by positivity) hr3
  obtain ⟨a1, a2⟩ := rnd64_rel' (x := r / 3) (le_trans (by norm_num) hr3)
  set q := Fmt.b64.rnd (r / 3)
  have hq : 1 / 2 ^ 126 ≤ q := by
    refine le_trans ?_ a1
    refine le_trans ?_ (mul_le_mul_of_nonneg_right hr3 (by norm_num))
    norm_num
  obtain ⟨b1, b2⟩ := rnd32_rel' hq
  unfold sigma32
  constructor
  · refine le_trans ?_ b1
    refine le_trans ?_ (mul_le_mul_of_nonneg_right a1 (by norm_num))
    rw [mul_assoc]
    exact mul_le_mul_of_nonneg_left (by norm_num) hp.le
  · refine le_trans b2 ?_
    refine le_trans (mul_le_mul_of_nonneg_right a2 (by norm_num)) ?_
    rw [mul_assoc]
    exact mul_le_mul_of_nonneg_left (by norm_num) hp.le

/-- Half the smallest positive `float` rounds to zero. -/
theorem rnd32_half_min : Fmt.b32.rnd (1 / 2 ^ 150) = 0 := by
  have hlog : Int.log 2 |(1 : ℚ) / 2 ^ 150| = -150 := by
    have : |(1 : ℚ) / 2 ^ 150| = ((2 : ℕ) : ℚ) ^ (-150 : ℤ) := by
      rw [abs_of_pos (by positivity)]
      norm_num
    rw [this, Int.log_zpow (by norm_num)]
  have hu : Fmt.b32.ulpExp (1 / 2 ^ 150) = -149 := by
    unfold Fmt.ulpExp
    rw [hlog]
    decide
  unfold Fmt.rnd
  rw [hu]
  have : (1 : ℚ) / 2 ^ 150 / 2 ^ (-149 : ℤ) = 1 / 2 := by norm_num
  rw [this]
  have : rne (1 / 2 : ℚ) = 0 := by norm_num [rne]
  rw [this]
  simp

theorem sigma32_nonneg {r : ℚ} (h : 0 ≤ r) : 0 ≤ sigma32 r :=
  rnd_nonneg _ (rnd_nonneg _ (by linarith))

theorem sig_lo {r : ℚ} (h : 0 < r) (hv : ¬ SigmaVanishes r) : 1 / 2 ^ 75 ≤ sigma32 r := by
  by_contra hc
  rw [not_le] at hc
  apply hv
  have h0 := sigma32_nonneg h.le
  have hle : sigma32 r * sigma32 r ≤ 1 / 2 ^ 150 := by
    have : (1 : ℚ) / 2 ^ 150 = 1 / 2 ^ 75 * (1 / 2 ^ 75) := by norm_num
    rw [this]
    exact mul_le_mul hc.le hc.le h0 (by positivity)
  have h1 := rnd_mono Fmt.b32 hle
  rw [rnd32_half_min] at h1
  exact le_antisymm h1 (rnd_nonneg _ (mul_nonneg h0 h0))

/-- Ordinary radii do not vanish. -/
theorem not_vanishes {r : ℚ} (h1 : 1 / 2 ^ 70 ≤ r) : ¬ SigmaVanishes r := by
  intro hv
  have hs : 1 / 2 ^ 72 ≤ sigma32 r := by
    unfold sigma32
    have h : (1 : ℚ) / 2 ^ 72 ≤ r / 3 := by
      have : (1 : ℚ) / 2 ^ 70 = 4 * (1 / 2 ^ 72) := by norm_num
      rw [this] at h1
      have : (0 : ℚ) < 1 / 2 ^ 72 := by positivity
      linarith
    exact le_rnd _ (le_rnd _ h (rnd64_inv_pow (by norm_num))) (rnd32_inv_pow (by norm_num))
  have hs0 : 0 < sigma32 r := lt_of_lt_of_le (by positivity) hs
  have : 1 / 2 ^ 144 ≤ Fmt.b32.rnd (sigma32 r * sigma32 r) := by
    refine le_rnd _ ?_ (rnd32_inv_pow (by norm_num))
    have : (1 : ℚ) / 2 ^ 144 = 1 / 2 ^ 72 * (1 / 2 ^ 72) := by norm_num
    rw [this]
    exact mul_le_mul hs hs (by positivity) hs0.le
  unfold SigmaVanishes at hv
  rw [hv] at this
  have h3 : (0 : ℚ) < 1 / 2 ^ 144 := by positivity
  linarith

theorem sig_hi {r : ℚ} (h2 : r ≤ 1000) : sigma32 r ≤ 334 := by
  unfold sigma32
  have h : r / 3 ≤ ((334 : ℤ) : ℚ) := by push_cast; linarith
  have := rnd_le _ (rnd_le _ h (rnd64_int (by norm_num))) (rnd32_int (m := 334) (by norm_num))
  exact_mod_cast this

theorem sq_small {s : ℚ} (h0 : 0 ≤ s) (h : s ≤ 334) : s * s ≤ 111556 := by nlinarith

theorem blurSigma_ok {r : ℚ} (hr : 0 < r) (hv : ¬ SigmaVanishes r) (h2 : r ≤ 1000) :
    ∃ t s, blurSigma (.fin r) = .ok (.fin t, .fin s) ∧ 0 < t ∧ 1 / 2 ^ 74 ≤ s ∧ s ≤ 1002 ∧
      (1 ≤ r → 2 * r ^ 2 / 9 * (1 - 4.2 / 16777216) ≤ t ∧ t ≤ 2 * r ^ 2 / 9 * (1 + 4.2 / 16777216)) := by
  have hs1 := sig_lo hr hv
  have hs2 := sig_hi h2
  have hs0 : 0 < sigma32 r := lt_of_lt_of_le (by positivity) hs1
  obtain ⟨c, hc, hc1, hc2⟩ := root_ok
  have e1 : Dbl.div Fmt.b64 (.fin r) (.fin 3) = .ok (.fin (Fmt.b64.rnd (r / 3))) := by
    rw [div_fin (by norm_num), lift64 (k := 10) (by norm_num)]
    rw [abs_of_pos (by linarith)]
    norm_num
    linarith
  have hq : |Fmt.b64.rnd (r / 3)| ≤ 2 ^ 10 := by
    have h : r / 3 ≤ ((1024 : ℤ) : ℚ) := by push_cast; linarith
    rw [abs_of_nonneg (rnd_nonneg _ (by linarith))]
    refine (rnd_le _ h (rnd64_int (by norm_num))).trans (by norm_num)
  have e2 : Fmt.b32.lift (Fmt.b64.rnd (r / 3)) = .fin (sigma32 r) := lift32 (by norm_num) hq
  have hsq : sigma32 r * sigma32 r ≤ 111556 := sq_small hs0.le hs2
  have hsq0 : 0 < sigma32 r * sigma32 r := mul_pos hs0 hs0
  have e3 : Fmt.b32.lift (sigma32 r * sigma32 r) = .fin (Fmt.b32.rnd (sigma32 r * sigma32 r)) := by
    apply lift32 (k := 20) (by norm_num)
    rw [abs_of_pos hsq0]
    refine hsq.trans (by norm_num)
  set q2 := Fmt.b32.rnd (sigma32 r * sigma32 r) with hq2
  have hq20 : 0 < q2 := lt_of_le_of_ne (rnd_nonneg _ hsq0.le) (fun h => hv h.symm)
  have hq2hi : q2 ≤ 111556 := by
    have := rnd_le Fmt.b32 (x := sigma32 r * sigma32 r) (b := ((111556 : ℤ) : ℚ)) (by exact_mod_cast hsq)
      (rnd32_int (by norm_num))
    exact_mod_cast this
  have e4 : Fmt.b32.lift (2 * q2) = .fin (Fmt.b32.rnd (2 * q2)) := by
    apply lift32 (k := 20) (by norm_num)
    rw [abs_of_pos (by linarith)]
    norm_num
    linarith
  have ht0 : q2 ≤ Fmt.b32.rnd (2 * q2) := le_rnd _ (by linarith) (by rw [hq2]; exact rnd_idem _ _)
  have hcs : c * sigma32 r ≤ 1002 := by nlinarith
  have hcs0 : 1 / 2 ^ 74 ≤ c * sigma32 r := by
    have : (1 : ℚ) / 2 ^ 74 = 2 * (1 / 2 ^ 75) := by norm_num
    rw [this]
    exact mul_le_mul hc1 hs1 (by positivity) (by linarith)
  have hcsp : 0 < c * sigma32 r := lt_of_lt_of_le (by positivity) hcs0
  have e5 : Fmt.b64.lift (c * sigma32 r) = .fin (Fmt.b64.rnd (c * sigma32 r)) := by
    apply lift64 (k := 10) (by norm_num)
    rw [abs_of_pos hcsp]
    refine hcs.trans (by norm_num)
  set z := Fmt.b64.rnd (c * sigma32 r) with hz
  have hzlo : 1 / 2 ^ 74 ≤ z := le_rnd _ hcs0 (rnd64_inv_pow (by norm_num))
  have hzhi : z ≤ ((1002 : ℤ) : ℚ) := rnd_le _ (by exact_mod_cast hcs) (rnd64_int (by norm_num))
  have hz0 : 0 < z := lt_of_lt_of_le (by positivity) hzlo
  have e6 : Fmt.b32.lift z = .fin (Fmt.b32.rnd z) := by
    apply lift32 (k := 10) (by norm_num)
    rw [abs_of_pos hz0]
    refine hzhi.trans (by norm_num)
  refine ⟨Fmt.b32.rnd (2 * q2), Fmt.b32.rnd z, ?_, lt_of_lt_of_le hq20 ht0, ?_, ?_, ?_⟩
  · unfold blurSigma
    rw [e1]
    simp only [ok_bind, Dbl.conv, e2, hc, Dbl.mul, e3, e4, e5, e6]
    rfl
  · exact le_rnd _ hzlo (rnd32_inv_pow (by norm_num))
  · have := rnd_le Fmt.b32 hzhi (rnd32_int (by norm_num))
    exact_mod_cast this
  · intro hr1
    obtain ⟨a1, a2⟩ := sig_bounds hr1
    have hs3 : 1 / 4 ≤ sigma32 r := by
      refine le_trans ?_ a1
      nlinarith
    have hsq4 : 1 / 16 ≤ sigma32 r * sigma32 r := by nlinarith
    obtain ⟨b1, b2⟩ := rnd32_rel' (x := sigma32 r * sigma32 r) (le_trans (by norm_num) hsq4)
    rw [← hq2] at b1 b2
    have hq16 : 1 / 32 ≤ q2 := by
      refine le_trans ?_ b1
      nlinarith
    obtain ⟨d1, d2⟩ := rnd32_rel' (x := 2 * q2) (le_trans (by norm_num) (by linarith : (1 : ℚ) / 16 ≤ 2 * q2))
    have hp : 0 < r / 3 := by linarith
    have s1 : (r / 3) * (r / 3) * (1 - 2.02 / 16777216) ≤ sigma32 r * sigma32 r := by
      have : (r / 3 * (1 - 1.01 / 16777216)) * (r / 3 * (1 - 1.01 / 16777216)) ≤ sigma32 r * sigma32 r :=
        mul_le_mul a1 a1 (mul_nonneg hp.le (by norm_num)) hs0.le
      refine le_trans ?_ this
      have e : (r / 3 * (1 - 1.01 / 16777216)) * (r / 3 * (1 - 1.01 / 16777216)) =
        (r / 3) * (r / 3) * ((1 - 1.01 / 16777216) * (1 - 1.01 / 16777216)) := by ring
      rw [e]
      exact mul_le_mul_of_nonneg_left (by norm_num) (by positivity)
    have s2 : sigma32 r * sigma32 r ≤ (r / 3) * (r / 3) * (1 + 2.0201 / 16777216) := by
      have : sigma32 r * sigma32 r ≤ (r / 3 * (1 + 1.01 / 16777216)) * (r / 3 * (1 + 1.01 / 16777216)) :=
        mul_le_mul a2 a2 hs0.le (mul_nonneg hp.le (by norm_num))
      refine le_trans this ?_
      have e : (r / 3 * (1 + 1.01 / 16777216)) * (r / 3 * (1 + 1.01 / 16777216)) =
        (r / 3) * (r / 3) * ((1 + 1.01 / 16777216) * (1 + 1.01 / 16777216)) := by ring
      rw [e]
      exact mul_le_mul_of_nonneg_left (by norm_num) (by positivity)
    have hP : 0 ≤ (r / 3) * (r / 3) := by positivity
    have eP : 2 * r ^ 2 / 9 = 2 * ((r / 3) * (r / 3)) := by ring
    rw [eP]
    set Pp := (r / 3) * (r / 3)
    constructor
    · refine le_trans ?_ d1
      have : Pp * (1 - 2.02 / 16777216) * (1 - 1 / 16777216) ≤ q2 :=
        le_trans (mul_le_mul_of_nonneg_right s1 (by norm_num)) b1
      have h3 : 2 * (Pp * (1 - 2.02 / 16777216) * (1 - 1 / 16777216)) * (1 - 1 / 16777216) ≤ 2 * q2 * (1 - 1 / 16777216) :=
        mul_le_mul_of_nonneg_right (by linarith) (by norm_num)
      refine le_trans ?_ h3
      have e : 2 * (Pp * (1 - 2.02 / 16777216) * (1 - 1 / 16777216)) * (1 - 1 / 16777216) =
        2 * Pp * ((1 - 2.02 / 16777216) * (1 - 1 / 16777216) * (1 - 1 / 16777216)) := by ring
      rw [e]
      exact mul_le_mul_of_nonneg_left (by norm_num) (by linarith)
    · refine le_trans d2 ?_
      have : q2 ≤ Pp * (1 + 2.0201 / 16777216) * (1 + 1 / 16777216) :=
        le_trans b2 (mul_le_mul_of_nonneg_right s2 (by norm_num))
      have h3 : 2 * q2 * (1 + 1 / 16777216) ≤ 2 * (Pp * (1 + 2.0201 / 16777216) * (1 + 1 / 16777216)) * (1 + 1 / 16777216) :=
        mul_le_mul_of_nonneg_right (by linarith) (by norm_num)
      refine le_trans h3 ?_
      have e : 2 * (Pp * (1 + 2.0201 / 16777216) * (1 + 1 / 16777216)) * (1 + 1 / 16777216) =
        2 * Pp * ((1 + 2.0201 / 16777216) * (1 + 1 / 16777216) * (1 + 1 / 16777216)) := by ring
      rw [e]
      exact mul_le_mul_of_nonneg_left (by norm_num) (by linarith)

end FlatCV
