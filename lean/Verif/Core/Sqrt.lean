/-
Semantics of C used by the model, part 5: `sqrt` of a `double`.
-/
import Verif.Core.Float
import Mathlib.Data.Nat.Sqrt

namespace FlatCV

/-- A rational on the same side of every multiple of `2^-1100` as the square root of `s ≥ 0`.
All values of the formats and all midpoints between neighbours are such multiples, so it rounds
to the same value as the root itself. -/
def sqrtMid (s : ℚ) : ℚ :=
  let n := ⌊s * 2 ^ 2200⌋.toNat
  let m := Nat.sqrt n
  if (m : ℚ) * m = s * 2 ^ 2200 then m / 2 ^ 1100 else (2 * m + 1) / 2 ^ 1101

/-- `sqrt` on `double`: correctly rounded (IEEE 754); NaN for negative arguments is outside the
model. -/
def f64sqrt (s : ℚ) : CM ℚ :=
  if s < 0 then .error .fpSpecial else .ok (Fmt.b64.rnd (sqrtMid s))

theorem rep_scale {r : ℚ} (hr : Fmt.b64.Rep r) (h0 : 0 ≤ r) : ∃ R : ℕ, r * 2 ^ 1100 = R := by
  obtain ⟨⟨m, e, he, _, rfl⟩, _⟩ := hr
  have he' : 0 ≤ e + 1100 := by
    have : (-1074 : ℤ) ≤ e := he
    omega
  obtain ⟨k, hk⟩ := Int.eq_ofNat_of_zero_le he'
  have e1 : (m : ℚ) * 2 ^ e * 2 ^ 1100 = ((m * 2 ^ k : ℤ) : ℚ) := by
    have : (2 : ℚ) ^ e * 2 ^ 1100 = 2 ^ k := by
      rw [← zpow_natCast (2 : ℚ) 1100, ← zpow_add₀ (by norm_num), ← zpow_natCast (2 : ℚ) k]
      congr 1
    rw [mul_assoc, this]
    push_cast
    ring
  have h1 : (0 : ℚ) ≤ ((m * 2 ^ k : ℤ) : ℚ) := by
    rw [← e1]
    exact mul_nonneg h0 (by positivity)
  have h2 : 0 ≤ m * 2 ^ k := by exact_mod_cast h1
  obtain ⟨R, hR⟩ := Int.eq_ofNat_of_zero_le h2
  exact ⟨R, by rw [e1, hR]; rfl⟩

theorem pow_2200 : (2 : ℚ) ^ 2200 = 2 ^ 1100 * 2 ^ 1100 := by rw [← pow_add]

theorem sqrtMid_ge' {r s : ℚ} (hr : ∃ R : ℕ, r * 2 ^ 1100 = R) (h0 : 0 ≤ r) (h : r * r ≤ s) :
    r ≤ sqrtMid s := by
  obtain ⟨R, hR⟩ := hr
  have hp : (0 : ℚ) < 2 ^ 1100 := by positivity
  have hs : 0 ≤ s := le_trans (mul_nonneg h0 h0) h
  have hsq : ((R * R : ℕ) : ℚ) ≤ s * 2 ^ 2200 := by
    push_cast
    rw [← hR, pow_2200]
    have := mul_le_mul_of_nonneg_right h (mul_nonneg hp.le hp.le)
    generalize (2 : ℚ) ^ 1100 = T at *
    linarith
  have hfl : R * R ≤ ⌊s * 2 ^ 2200⌋.toNat := by
    have : ((R * R : ℕ) : ℤ) ≤ ⌊s * 2 ^ 2200⌋ := Int.le_floor.2 (by exact_mod_cast hsq)
    omega
  have hm : R ≤ Nat.sqrt ⌊s * 2 ^ 2200⌋.toNat := Nat.le_sqrt.2 hfl
  unfold sqrtMid
  simp only
  generalize Nat.sqrt ⌊s * 2 ^ 2200⌋.toNat = m at hm
  have hmq : (R : ℚ) ≤ m := by exact_mod_cast hm
  have e : (2 : ℚ) ^ 1101 = 2 * 2 ^ 1100 := by rw [← pow_succ']
  split_ifs
  · rw [le_div_iff₀ hp]
    linarith
  · rw [le_div_iff₀ (by positivity), e]
    generalize (2 : ℚ) ^ 1100 = T at *
    nlinarith

theorem sqrtMid_ge {r s : ℚ} (hr : Fmt.b64.Rep r) (h0 : 0 ≤ r) (h : r * r ≤ s) :
    r ≤ sqrtMid s := sqrtMid_ge' (rep_scale hr h0) h0 h

theorem sqrtMid_le {r s : ℚ} (hr : Fmt.b64.Rep r) (h0 : 0 ≤ r) (hs : 0 ≤ s) (h : s ≤ r * r) :
    sqrtMid s ≤ r := by
  obtain ⟨R, hR⟩ := rep_scale hr h0
  have hp : (0 : ℚ) < 2 ^ 1100 := by positivity
  have hsq : s * 2 ^ 2200 ≤ ((R * R : ℕ) : ℚ) := by
    push_cast
    rw [← hR, pow_2200]
    have := mul_le_mul_of_nonneg_right h (mul_nonneg hp.le hp.le)
    generalize (2 : ℚ) ^ 1100 = T at *
    linarith
  have hnn : 0 ≤ s * 2 ^ 2200 := mul_nonneg hs (by positivity)
  have hfn : (0 : ℤ) ≤ ⌊s * 2 ^ 2200⌋ := Int.floor_nonneg.2 hnn
  have hfl0 : ((⌊s * 2 ^ 2200⌋.toNat : ℕ) : ℚ) ≤ s * 2 ^ 2200 := by
    have h1 := Int.floor_le (s * 2 ^ 2200)
    have h2 : ((⌊s * 2 ^ 2200⌋.toNat : ℕ) : ℤ) = ⌊s * 2 ^ 2200⌋ := by omega
    have h3 : ((⌊s * 2 ^ 2200⌋.toNat : ℕ) : ℚ) = ((⌊s * 2 ^ 2200⌋ : ℤ) : ℚ) := by exact_mod_cast h2
    rw [h3]; exact h1
  have hmm := Nat.sqrt_le ⌊s * 2 ^ 2200⌋.toNat
  unfold sqrtMid
  simp only
  generalize Nat.sqrt ⌊s * 2 ^ 2200⌋.toNat = m at hmm
  have hmq : (m : ℚ) * m ≤ s * 2 ^ 2200 := by
    refine le_trans ?_ hfl0
    exact_mod_cast hmm
  have e : (2 : ℚ) ^ 1101 = 2 * 2 ^ 1100 := by rw [← pow_succ']
  split_ifs with hc
  · rw [div_le_iff₀ hp, hR]
    have h1 : ((m * m : ℕ) : ℚ) ≤ ((R * R : ℕ) : ℚ) := by push_cast at hsq ⊢; linarith
    have h2 : m * m ≤ R * R := by exact_mod_cast h1
    exact_mod_cast Nat.mul_self_le_mul_self_iff.1 h2
  · have hlt : (m : ℚ) * m < s * 2 ^ 2200 := lt_of_le_of_ne hmq hc
    have h1 : ((m * m : ℕ) : ℚ) < ((R * R : ℕ) : ℚ) := by push_cast at hsq ⊢; linarith
    have h2 : m * m < R * R := by exact_mod_cast h1
    have h3 : m + 1 ≤ R := Nat.mul_self_lt_mul_self_iff.1 h2
    have h4 : (m : ℚ) + 1 ≤ R := by exact_mod_cast h3
    rw [div_le_iff₀ (by positivity), e]
    generalize (2 : ℚ) ^ 1100 = T at *
    nlinarith

/-- The square root is at least every value whose square is at most the argument. -/
theorem le_f64sqrt {r s : ℚ} (hr : Fmt.b64.Rep r) (h0 : 0 ≤ r) (h : r * r ≤ s) :
    r ≤ Fmt.b64.rnd (sqrtMid s) := le_rnd _ (sqrtMid_ge hr h0 h) hr.rnd

/-- The square root is at most every value whose square is at least the argument. -/
theorem f64sqrt_le {r s : ℚ} (hr : Fmt.b64.Rep r) (h0 : 0 ≤ r) (hs : 0 ≤ s) (h : s ≤ r * r) :
    Fmt.b64.rnd (sqrtMid s) ≤ r := rnd_le _ (sqrtMid_le hr h0 hs h) hr.rnd

theorem f64sqrt_ok {s : ℚ} (hs : 0 ≤ s) : f64sqrt s = .ok (Fmt.b64.rnd (sqrtMid s)) := by
  unfold f64sqrt
  rw [if_neg (not_lt.2 hs)]

theorem sqrtMid_nonneg (s : ℚ) : 0 ≤ sqrtMid s := by
  unfold sqrtMid
  simp only
  split_ifs <;> positivity

theorem mid_le {a b T : ℚ} (h : a ≤ b) (hT : 0 < T) : a * (2 * T) ≤ (2 * b + 1) * T := by
  nlinarith

theorem mid_ge {a b T : ℚ} (h : a + 1 ≤ b) (hT : 0 < T) : (2 * a + 1) * T ≤ b * (2 * T) := by
  nlinarith

theorem sqrtMid_mono {s t : ℚ} (h : s ≤ t) (hs : 0 ≤ s) : sqrtMid s ≤ sqrtMid t := by
  have hp : (0 : ℚ) < 2 ^ 1100 := by positivity
  have hfl : ⌊s * 2 ^ 2200⌋.toNat ≤ ⌊t * 2 ^ 2200⌋.toNat := by
    have : ⌊s * 2 ^ 2200⌋ ≤ ⌊t * 2 ^ 2200⌋ := Int.floor_mono (mul_le_mul_of_nonneg_right h (by positivity))
    omega
  have hnn : 0 ≤ s * 2 ^ 2200 := mul_nonneg hs (by positivity)
  have hst : s * 2 ^ 2200 ≤ t * 2 ^ 2200 := mul_le_mul_of_nonneg_right h (by positivity)
  have hfls : ((⌊s * 2 ^ 2200⌋.toNat : ℕ) : ℚ) ≤ s * 2 ^ 2200 := by
    have h1 := Int.floor_le (s * 2 ^ 2200)
    have h0 : (0 : ℤ) ≤ ⌊s * 2 ^ 2200⌋ := Int.floor_nonneg.2 hnn
    have h2 : ((⌊s * 2 ^ 2200⌋.toNat : ℕ) : ℤ) = ⌊s * 2 ^ 2200⌋ := by omega
    have h3 : ((⌊s * 2 ^ 2200⌋.toNat : ℕ) : ℚ) = ((⌊s * 2 ^ 2200⌋ : ℤ) : ℚ) := by exact_mod_cast h2
    rw [h3]; exact h1
  have hm := Nat.sqrt_le_sqrt hfl
  have hms := Nat.sqrt_le ⌊s * 2 ^ 2200⌋.toNat
  have e : (2 : ℚ) ^ 1101 = 2 * 2 ^ 1100 := by rw [← pow_succ']
  unfold sqrtMid
  simp only
  generalize Nat.sqrt ⌊s * 2 ^ 2200⌋.toNat = a at *
  generalize Nat.sqrt ⌊t * 2 ^ 2200⌋.toNat = b at *
  have hab : (a : ℚ) ≤ b := by exact_mod_cast hm
  have has : (a : ℚ) * a ≤ s * 2 ^ 2200 := by
    refine le_trans ?_ hfls
    exact_mod_cast hms
  by_cases h1 : (a : ℚ) * a = s * 2 ^ 2200
  · by_cases h2 : (b : ℚ) * b = t * 2 ^ 2200
    · rw [if_pos h1, if_pos h2]
      exact (div_le_div_iff_of_pos_right hp).2 hab
    · rw [if_pos h1, if_neg h2, e, div_le_div_iff₀ hp (by positivity)]
      exact mid_le hab hp
  · by_cases h2 : (b : ℚ) * b = t * 2 ^ 2200
    · rw [if_neg h1, if_pos h2, e, div_le_div_iff₀ (by positivity) hp]
      have hlt : (a : ℚ) * a < b * b := by
        rw [h2]
        exact lt_of_lt_of_le (lt_of_le_of_ne has h1) hst
      have h3 : a * a < b * b := by exact_mod_cast hlt
      have h4 : a + 1 ≤ b := Nat.mul_self_lt_mul_self_iff.1 h3
      have h5 : (a : ℚ) + 1 ≤ b := by exact_mod_cast h4
      exact mid_ge h5 hp
    · rw [if_neg h1, if_neg h2, div_le_div_iff_of_pos_right (by positivity)]
      linarith

/-- The computed square root is monotone. -/
theorem f64sqrt_mono {s t : ℚ} (h : s ≤ t) (hs : 0 ≤ s) :
    Fmt.b64.rnd (sqrtMid s) ≤ Fmt.b64.rnd (sqrtMid t) := rnd_mono _ (sqrtMid_mono h hs)

theorem lt_max64 {x : ℚ} (h : x ≤ 1152921504606846976) : x < 2 ^ (Fmt.b64.emax + 1) := by
  have h1 : (2 : ℚ) ^ (60 : ℤ) < 2 ^ (Fmt.b64.emax + 1) :=
    zpow_lt_zpow_right₀ (by norm_num) (by decide)
  have h2 : (2 : ℚ) ^ (60 : ℤ) = 1152921504606846976 := by norm_num
  linarith

theorem rep64_int {z : ℤ} (h : |z| ≤ 9007199254740992) : Fmt.b64.Rep (z : ℚ) := by
  refine ⟨⟨z, 0, by decide, by exact_mod_cast h, by simp⟩, ?_⟩
  have h1 : |(z : ℚ)| ≤ 9007199254740992 := by exact_mod_cast h
  exact lt_max64 (by linarith)

/-- Comparing a computed root of an integer below `2^52` with an integer is exact. -/
theorem f64sqrt_lt_iff {n m : ℕ} (hn : n < 2 ^ 52) (hm : m < 2 ^ 32) :
    Fmt.b64.rnd (sqrtMid n) < m ↔ n < m * m := by
  constructor
  · intro h
    by_contra hc
    have h1 : (m : ℚ) * m ≤ n := by exact_mod_cast Nat.not_lt.1 hc
    have h2 := le_f64sqrt (r := ((m : ℤ) : ℚ)) (s := n) (rep64_int (by rw [Nat.abs_cast]; omega))
      (by positivity) (by exact_mod_cast h1)
    push_cast at h2
    linarith
  · intro h
    by_cases h26 : m ≤ 67108864
    · have hm1 : 1 ≤ m := by
        rcases Nat.eq_zero_or_pos m with rfl | h0
        · omega
        · exact h0
      have hr : Fmt.b64.Rep ((m : ℚ) - 1 / 134217728) := by
        refine ⟨⟨(m : ℤ) * 134217728 - 1, -27, by decide, ?_, ?_⟩, ?_⟩
        · rw [abs_of_nonneg (by omega)]
          show (m : ℤ) * 134217728 - 1 ≤ 2 ^ 53
          have : (m : ℤ) ≤ 67108864 := by exact_mod_cast h26
          omega
        · push_cast
          rw [show (2 : ℚ) ^ (-27 : ℤ) = 1 / 134217728 by norm_num]
          ring
        · have h1 : (1 : ℚ) ≤ m := by exact_mod_cast hm1
          have h2 : (m : ℚ) ≤ 67108864 := by exact_mod_cast h26
          rw [abs_of_nonneg (by linarith)]
          exact lt_max64 (by linarith)
      have h1 : (1 : ℚ) ≤ m := by exact_mod_cast hm1
      have h2 : (m : ℚ) ≤ 67108864 := by exact_mod_cast h26
      have h3 : (n : ℚ) + 1 ≤ m * m := by exact_mod_cast h
      have := f64sqrt_le (s := (n : ℚ)) hr (by linarith) (by positivity) (by nlinarith)
      linarith
    · have := f64sqrt_le (r := ((67108864 : ℤ) : ℚ)) (s := (n : ℚ)) (rep64_int (by norm_num))
        (by norm_num) (by positivity) (by
          have : (n : ℚ) ≤ 4503599627370496 := by exact_mod_cast (by omega : n ≤ 4503599627370496)
          push_cast
          linarith)
      have h4 : (67108864 : ℚ) < m := by exact_mod_cast Nat.not_le.1 h26
      push_cast at this
      linarith

end FlatCV
