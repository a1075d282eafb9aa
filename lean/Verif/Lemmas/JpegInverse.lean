/-
The inverse cosine transform: what a file stands for is as close to the samples as its coefficients are to the transform of the samples.
-/
import Mathlib.Analysis.SpecialFunctions.Trigonometric.Basic
import Mathlib.LinearAlgebra.Matrix.Trace
import Mathlib.LinearAlgebra.Matrix.NonsingularInverse
import Verif.Spec.Jpeg

namespace FlatCV
open Jpg Real

/-- The sum of a cosine at the eight positions vanishes. -/
theorem cos_sum_zero {t : ℝ} (h : sin t ≠ 0) (h16 : sin (16 * t) = 0) : ∑ x ∈ Finset.range 8, cos ((2 * (x : ℝ) + 1) * t) = 0 := by
  have key : ∀ n : ℕ, 2 * sin t * ∑ x ∈ Finset.range n, cos ((2 * (x : ℝ) + 1) * t) = sin (2 * n * t) := by
    intro n
    induction n with
    | zero => simp
    | succ n ih =>
      rw [Finset.sum_range_succ, mul_add, ih]
      have e1 : (2 * ((n + 1 : ℕ) : ℝ) * t) = (2 * n + 1) * t + t := by push_cast; ring
      have e2 : (2 * (n : ℝ) * t) = (2 * n + 1) * t - t := by ring
      rw [e1, e2, sin_add, sin_sub]
      ring
  have := key 8
  rw [show (2 * ((8 : ℕ) : ℝ) * t) = 16 * t by push_cast; ring, h16] at this
  rcases mul_eq_zero.1 this with h' | h'
  · exact absurd (by linarith) h
  · exact h'

theorem cos_sum_freq {n : ℕ} (h0 : 0 < n) (h : n < 16) : ∑ x ∈ Finset.range 8, cos ((2 * (x : ℝ) + 1) * (n * π / 16)) = 0 := by
  refine cos_sum_zero ?_ ?_
  · refine (sin_pos_of_pos_of_lt_pi ?_ ?_).ne'
    · have : (0 : ℝ) < n := by exact_mod_cast h0
      positivity
    · have : (n : ℝ) < 16 := by exact_mod_cast h
      have := pi_pos
      nlinarith
  · rw [show 16 * (n * π / 16) = n * π by ring]
    exact sin_nat_mul_pi n

/-- The matrix of the transform. -/
noncomputable def dctM : Matrix (Fin 8) (Fin 8) ℝ := fun u x => norm0 u / 2 * cos ((2 * (x : ℝ) + 1) * u * π / 16)

theorem cos_cos_sum {u v : ℕ} (hu : u < 8) (hv : v < 8) (h : u < v) :
    ∑ x ∈ Finset.range 8, cos ((2 * (x : ℝ) + 1) * u * π / 16) * cos ((2 * (x : ℝ) + 1) * v * π / 16) = 0 := by
  have e : ∀ x : ℕ, cos ((2 * (x : ℝ) + 1) * u * π / 16) * cos ((2 * (x : ℝ) + 1) * v * π / 16) =
      1 / 2 * cos ((2 * (x : ℝ) + 1) * ((v - u : ℕ) * π / 16)) + 1 / 2 * cos ((2 * (x : ℝ) + 1) * ((v + u : ℕ) * π / 16)) := by
    intro x
    rw [Nat.cast_sub h.le, Nat.cast_add]
    have e1 : (2 * (x : ℝ) + 1) * ((v - u) * π / 16) = (2 * (x : ℝ) + 1) * v * π / 16 - (2 * (x : ℝ) + 1) * u * π / 16 := by ring
    have e2 : (2 * (x : ℝ) + 1) * ((v + u) * π / 16) = (2 * (x : ℝ) + 1) * v * π / 16 + (2 * (x : ℝ) + 1) * u * π / 16 := by ring
    rw [e1, e2, cos_add, cos_sub]
    ring
  simp only [e]
  rw [Finset.sum_add_distrib, ← Finset.mul_sum, ← Finset.mul_sum, cos_sum_freq (by omega) (by omega), cos_sum_freq (by omega) (by omega)]
  ring

theorem cos_sq_sum {u : ℕ} (hu : u < 8) (h : 0 < u) :
    ∑ x ∈ Finset.range 8, cos ((2 * (x : ℝ) + 1) * u * π / 16) * cos ((2 * (x : ℝ) + 1) * u * π / 16) = 4 := by
  have e : ∀ x : ℕ, cos ((2 * (x : ℝ) + 1) * u * π / 16) * cos ((2 * (x : ℝ) + 1) * u * π / 16) =
      1 / 2 + 1 / 2 * cos ((2 * (x : ℝ) + 1) * ((u + u : ℕ) * π / 16)) := by
    intro x
    rw [Nat.cast_add]
    have e2 : (2 * (x : ℝ) + 1) * ((u + u) * π / 16) = 2 * ((2 * (x : ℝ) + 1) * u * π / 16) := by ring
    rw [e2, cos_two_mul]
    ring
  simp only [e]
  rw [Finset.sum_add_distrib, ← Finset.mul_sum, cos_sum_freq (by omega) (by omega)]
  norm_num

theorem dctM_orth : dctM * dctM.transpose = 1 := by
  ext u v
  rw [Matrix.mul_apply]
  simp only [Matrix.transpose_apply, dctM]
  have e : ∀ x : Fin 8, norm0 u / 2 * cos ((2 * (x : ℝ) + 1) * u * π / 16) * (norm0 v / 2 * cos ((2 * (x : ℝ) + 1) * v * π / 16)) =
      norm0 u * norm0 v / 4 * (cos ((2 * ((x : ℕ) : ℝ) + 1) * u * π / 16) * cos ((2 * ((x : ℕ) : ℝ) + 1) * v * π / 16)) := fun x => by ring
  rw [Finset.sum_congr rfl fun x _ => e x, ← Finset.mul_sum,
    Fin.sum_univ_eq_sum_range (fun x : ℕ => cos ((2 * (x : ℝ) + 1) * u * π / 16) * cos ((2 * (x : ℝ) + 1) * v * π / 16)) 8]
  rcases lt_trichotomy (u : ℕ) v with h | h | h
  · rw [cos_cos_sum u.2 v.2 h, mul_zero, Matrix.one_apply_ne (fun e => by rw [e] at h; omega)]
  · have : u = v := Fin.ext h
    subst this
    rw [Matrix.one_apply_eq]
    rcases Nat.eq_zero_or_pos (u : ℕ) with h0 | h0
    · rw [h0]
      simp only [Nat.cast_zero, mul_zero, zero_mul, zero_div, cos_zero, Finset.sum_const, Finset.card_range, norm0, if_true]
      have : √2 * √2 = 2 := mul_self_sqrt (by norm_num)
      field_simp
      norm_num
    · rw [cos_sq_sum u.2 h0]
      unfold norm0
      rw [if_neg (by omega)]
      norm_num
  · have e2 := cos_cos_sum v.2 u.2 h
    simp only [mul_comm (cos ((2 * _ + 1) * (v : ℝ) * π / 16))] at e2
    rw [e2, mul_zero, Matrix.one_apply_ne (fun e => by rw [e] at h; omega)]

/-- A block as a matrix. -/
def blockM (f : ℕ → ℕ → ℝ) : Matrix (Fin 8) (Fin 8) ℝ := fun y x => f y x

theorem dct_matrix (f : ℕ → ℕ → ℝ) : blockM (dct f) = dctM * blockM f * dctM.transpose := by
  ext v u
  simp only [Matrix.mul_apply, Matrix.transpose_apply, blockM, dctM, dct]
  rw [← Fin.sum_univ_eq_sum_range (fun y => ∑ x ∈ Finset.range 8,
    f y x * cos ((2 * (x : ℝ) + 1) * u * π / 16) * cos ((2 * (y : ℝ) + 1) * v * π / 16)) 8]
  simp only [← Fin.sum_univ_eq_sum_range (fun x => f _ x * cos ((2 * (x : ℝ) + 1) * u * π / 16) * cos ((2 * _ + 1) * v * π / 16)) 8,
    Finset.mul_sum, Finset.sum_mul]
  rw [Finset.sum_comm]
  refine Finset.sum_congr rfl fun x _ => Finset.sum_congr rfl fun y _ => ?_
  ring

theorem idct_matrix (f : ℕ → ℕ → ℝ) : blockM (idct f) = dctM.transpose * blockM f * dctM := by
  ext y x
  simp only [Matrix.mul_apply, Matrix.transpose_apply, blockM, dctM, idct]
  rw [← Fin.sum_univ_eq_sum_range (fun v => ∑ u ∈ Finset.range 8,
    norm0 u * norm0 v * f v u * cos ((2 * (x : ℝ) + 1) * u * π / 16) * cos ((2 * (y : ℝ) + 1) * v * π / 16)) 8]
  simp only [← Fin.sum_univ_eq_sum_range (fun u => norm0 u * norm0 _ * f _ u * cos ((2 * (x : ℝ) + 1) * u * π / 16) * cos ((2 * (y : ℝ) + 1) * _ * π / 16)) 8,
    Finset.mul_sum, Finset.sum_mul]
  rw [Finset.sum_comm]
  refine Finset.sum_congr rfl fun x _ => Finset.sum_congr rfl fun y _ => ?_
  ring

/-- The sum of the squares. -/
theorem sum_sq_trace (A : Matrix (Fin 8) (Fin 8) ℝ) : ∑ y, ∑ x, A y x ^ 2 = (A.transpose * A).trace := by
  simp only [Matrix.trace, Matrix.diag, Matrix.mul_apply, Matrix.transpose_apply]
  rw [Finset.sum_comm]
  refine Finset.sum_congr rfl fun x _ => Finset.sum_congr rfl fun y _ => ?_
  ring

/-- The squared distance between the block that `F` stands for and `f` is that between `F` and the transform of `f`. -/
theorem idct_dist (F f : ℕ → ℕ → ℝ) :
    ∑ y ∈ Finset.range 8, ∑ x ∈ Finset.range 8, (idct F y x - f y x) ^ 2 =
      ∑ v ∈ Finset.range 8, ∑ u ∈ Finset.range 8, (F v u - dct f v u) ^ 2 := by
  have cc : dctM.transpose * dctM = 1 := mul_eq_one_comm.1 dctM_orth
  have conv : ∀ A B : ℕ → ℕ → ℝ, ∑ y ∈ Finset.range 8, ∑ x ∈ Finset.range 8, (A y x - B y x) ^ 2 =
      ∑ y, ∑ x, (blockM A - blockM B) y x ^ 2 := by
    intro A B
    rw [← Fin.sum_univ_eq_sum_range (fun y => ∑ x ∈ Finset.range 8, (A y x - B y x) ^ 2) 8]
    refine Finset.sum_congr rfl fun y _ => ?_
    rw [← Fin.sum_univ_eq_sum_range (fun x => (A y x - B y x) ^ 2) 8]
    rfl
  rw [conv, conv, sum_sq_trace, sum_sq_trace]
  have e : blockM (idct F) - blockM f = dctM.transpose * (blockM F - blockM (dct f)) * dctM := by
    rw [idct_matrix, dct_matrix, Matrix.mul_sub, Matrix.sub_mul]
    congr 1
    rw [Matrix.mul_assoc dctM, ← Matrix.mul_assoc dctM.transpose, cc, Matrix.one_mul, Matrix.mul_assoc, cc, Matrix.mul_one]
  rw [e]
  generalize blockM F - blockM (dct f) = E
  rw [Matrix.transpose_mul, Matrix.transpose_mul, Matrix.transpose_transpose]
  rw [show dctM.transpose * (E.transpose * dctM) * (dctM.transpose * E * dctM) = dctM.transpose * (E.transpose * (dctM * dctM.transpose) * E) * dctM by
    simp only [Matrix.mul_assoc], dctM_orth, Matrix.mul_one, Matrix.trace_mul_comm, ← Matrix.mul_assoc, dctM_orth, Matrix.one_mul]

end FlatCV
