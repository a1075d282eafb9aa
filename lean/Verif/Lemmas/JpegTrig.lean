/-
The cosines of the transform: exact identities behind `stbiw__jpg_DCT`, and their values to nine digits.
-/
import Mathlib.Analysis.SpecialFunctions.Trigonometric.Basic
import Mathlib.Tactic.Linarith
import Mathlib.Tactic.LinearCombination

namespace FlatCV
open Real

/-- `cos (n π / 16)`. -/
noncomputable def cs (n : ℕ) : ℝ := cos (n * π / 16)

theorem cs_zero : cs 0 = 1 := by simp [cs]

theorem cs_eight : cs 8 = 0 := by
  unfold cs
  rw [show ((8 : ℕ) : ℝ) * π / 16 = π / 2 by push_cast; ring]
  exact cos_pi_div_two

theorem cs_period (n : ℕ) : cs (n + 32) = cs n := by
  unfold cs
  rw [show ((n + 32 : ℕ) : ℝ) * π / 16 = n * π / 16 + 2 * π by push_cast; ring, cos_add_two_pi]

theorem cs_half (n : ℕ) : cs (n + 16) = - cs n := by
  unfold cs
  rw [show ((n + 16 : ℕ) : ℝ) * π / 16 = n * π / 16 + π by push_cast; ring, cos_add_pi]

theorem cs_sub {m n : ℕ} (h : m + n = 16) : cs m = - cs n := by
  unfold cs
  have e : ((m : ℕ) : ℝ) * π / 16 = π - n * π / 16 := by
    have : (m : ℝ) + n = 16 := by exact_mod_cast h
    rw [show (m : ℝ) = 16 - n by linarith]
    ring
  rw [e, cos_pi_sub]

theorem cs_mul (a b : ℕ) : 2 * cs (a + b) * cs a = cs (2 * a + b) + cs b := by
  unfold cs
  have h1 := cos_add ((a + b : ℕ) * π / 16) (a * π / 16)
  have h2 := cos_sub ((a + b : ℕ) * π / 16) (a * π / 16)
  rw [show ((a + b : ℕ) : ℝ) * π / 16 + a * π / 16 = (2 * a + b : ℕ) * π / 16 by push_cast; ring] at h1
  rw [show ((a + b : ℕ) : ℝ) * π / 16 - a * π / 16 = (b : ℕ) * π / 16 by push_cast; ring] at h2
  rw [h1, h2]
  ring

theorem cs_sq (a : ℕ) : 2 * cs a ^ 2 = cs (2 * a) + 1 := by
  have := cs_mul a 0
  rw [cs_zero, Nat.add_zero, Nat.add_zero] at this
  linarith

theorem cs_table :
    cs 9 = - cs 7 ∧ cs 10 = - cs 6 ∧ cs 11 = - cs 5 ∧ cs 12 = - cs 4 ∧ cs 13 = - cs 3 ∧ cs 14 = - cs 2 ∧ cs 15 = - cs 1 ∧ cs 16 = -1 :=
  ⟨cs_sub rfl, cs_sub rfl, cs_sub rfl, cs_sub rfl, cs_sub rfl, cs_sub rfl, cs_sub rfl, by rw [cs_sub (n := 0) rfl, cs_zero]⟩

/-- All cosines of multiples of `π / 16` by reduction. -/
theorem cs_red (n : ℕ) : cs n = if n % 32 < 16 then cs (n % 16) else - cs (n % 16) := by
  have h1 : ∀ q r, cs (32 * q + r) = cs r := by
    intro q r
    induction q with
    | zero => simp
    | succ q ih => rw [show 32 * (q + 1) + r = 32 * q + r + 32 by ring, cs_period, ih]
  have h2 : cs n = cs (n % 32) := by
    conv_lhs => rw [← Nat.div_add_mod n 32]
    exact h1 _ _
  by_cases h : n % 32 < 16
  · rw [if_pos h, h2, show n % 32 = n % 16 by omega]
  · rw [if_neg h, h2, show n % 32 = n % 16 + 16 by omega, cs_half]

/-! ### Values -/

theorem cs_pos {n : ℕ} (h : n < 8) : 0 < cs n := by
  unfold cs
  have h8 : (n : ℝ) < 8 := by exact_mod_cast h
  have := pi_pos
  apply cos_pos_of_mem_Ioo
  constructor
  · have : (0 : ℝ) ≤ n * π / 16 := by positivity
    linarith
  · nlinarith

theorem le_of_squares {x y : ℝ} (h : x ^ 2 ≤ y ^ 2) (hy : 0 ≤ y) : x ≤ y := by
  by_contra hc
  nlinarith

theorem cs_half_angle {n : ℕ} {lo hi a b : ℝ} (hn : n < 8) (ha : a ≤ cs (2 * n)) (hb : cs (2 * n) ≤ b) (hlo : 0 ≤ lo) (hhi : 0 ≤ hi)
    (h1 : 2 * lo ^ 2 ≤ 1 + a) (h2 : 1 + b ≤ 2 * hi ^ 2) : lo ≤ cs n ∧ cs n ≤ hi := by
  have h := cs_sq n
  have hp := cs_pos hn
  constructor
  · apply le_of_squares _ hp.le
    linarith
  · apply le_of_squares _ hhi
    linarith

theorem cs4 : (707106781 / 10 ^ 9 : ℝ) ≤ cs 4 ∧ cs 4 ≤ 707106782 / 10 ^ 9 :=
  cs_half_angle (n := 4) (a := 0) (b := 0) (by norm_num) (by rw [cs_eight]) (by rw [cs_eight]) (by norm_num) (by norm_num) (by norm_num)
    (by norm_num)

theorem cs2 : (923879532 / 10 ^ 9 : ℝ) ≤ cs 2 ∧ cs 2 ≤ 923879533 / 10 ^ 9 :=
  cs_half_angle (by norm_num) cs4.1 cs4.2 (by norm_num) (by norm_num) (by norm_num) (by norm_num)

theorem cs6 : (382683431 / 10 ^ 9 : ℝ) ≤ cs 6 ∧ cs 6 ≤ 382683434 / 10 ^ 9 := by
  have h : cs (2 * 6) = - cs 4 := cs_table.2.2.2.1
  exact cs_half_angle (by norm_num) (a := -707106782 / 10 ^ 9) (b := -707106781 / 10 ^ 9) (by rw [h]; linarith [cs4.2])
    (by rw [h]; linarith [cs4.1]) (by norm_num) (by norm_num) (by norm_num) (by norm_num)

theorem cs1 : (980785279 / 10 ^ 9 : ℝ) ≤ cs 1 ∧ cs 1 ≤ 980785281 / 10 ^ 9 :=
  cs_half_angle (by norm_num) cs2.1 cs2.2 (by norm_num) (by norm_num) (by norm_num) (by norm_num)

theorem cs3 : (831469611 / 10 ^ 9 : ℝ) ≤ cs 3 ∧ cs 3 ≤ 831469613 / 10 ^ 9 :=
  cs_half_angle (by norm_num) cs6.1 cs6.2 (by norm_num) (by norm_num) (by norm_num) (by norm_num)

theorem cs5 : (555570231 / 10 ^ 9 : ℝ) ≤ cs 5 ∧ cs 5 ≤ 555570235 / 10 ^ 9 := by
  have h : cs (2 * 5) = - cs 6 := cs_table.2.1
  exact cs_half_angle (by norm_num) (a := -382683434 / 10 ^ 9) (b := -382683431 / 10 ^ 9) (by rw [h]; linarith [cs6.2])
    (by rw [h]; linarith [cs6.1]) (by norm_num) (by norm_num) (by norm_num) (by norm_num)

theorem cs7 : (195090320 / 10 ^ 9 : ℝ) ≤ cs 7 ∧ cs 7 ≤ 195090325 / 10 ^ 9 := by
  have h : cs (2 * 7) = - cs 2 := cs_table.2.2.2.2.2.1
  exact cs_half_angle (by norm_num) (a := -923879533 / 10 ^ 9) (b := -923879532 / 10 ^ 9) (by rw [h]; linarith [cs2.2])
    (by rw [h]; linarith [cs2.1]) (by norm_num) (by norm_num) (by norm_num) (by norm_num)

end FlatCV
