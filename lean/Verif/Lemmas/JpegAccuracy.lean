/-
The inverse cosine transform of the JPEG decoder: how far its samples are from the exact transform.
-/
import Verif.Lemmas.JpegIdct
import Verif.Lemmas.JpegTrig
import Verif.Spec.Jpeg

namespace FlatCV
open Model Jpg Real

/-- The matrix of the integer transform. -/
def mTable : List Int :=
  [4096, 5683, 5352, 4816, 4096, 3219, 2217, 1131,
   4096, 4816, 2217, -1129, -4096, -5681, -5350, -3218,
   4096, 3219, -2217, -5681, -4096, 1132, 5350, 4816,
   4096, 1131, -5352, -3218, 4096, 4816, -2217, -5680,
   4096, -1131, -5352, 3218, 4096, -4816, -2217, 5680,
   4096, -3219, -2217, 5681, -4096, -1132, 5350, -4816,
   4096, -4816, 2217, 1129, -4096, 5681, -5350, 3218,
   4096, -5683, 5352, -4816, 4096, -3219, 2217, -1131]

def mI (x u : Nat) : Int := mTable.getD (8 * x + u) 0

/-- Ten times the nearest tenth to `4096 * √2 * cos (n * π / 16)`. -/
def kTable : List Int :=
  [57926, 56813, 53517, 48164, 40960, 32182, 22167, 11301, 0, -11301, -22167, -32182, -40960, -48164, -53517, -56813, -57926, -56813, -53517, -48164, -40960, -32182, -22167, -11301, 0, 11301, 22167, 32182, 40960, 48164, 53517, 56813]

theorem xf_sum (f : Nat → Int) {x : Nat} (hx : x < 8) : xf (oct f) x = ∑ u ∈ Finset.range 8, mI x u * f u := by
  simp only [Finset.sum_range_succ, Finset.sum_range_zero]
  have : x = 0 ∨ x = 1 ∨ x = 2 ∨ x = 3 ∨ x = 4 ∨ x = 5 ∨ x = 6 ∨ x = 7 := by omega
  rcases this with rfl | rfl | rfl | rfl | rfl | rfl | rfl | rfl <;>
    simp only [xf, evenP, oddP, oct, mI, mTable, List.getD_cons_zero, List.getD_cons_succ, Nat.mul_zero, Nat.zero_add, Nat.reduceMul, Nat.reduceAdd] <;> ring

theorem mI_abs : ∀ x < 8, ∀ u < 8, |mI x u| ≤ 5683 := by decide +kernel

theorem mI_row : ∀ x < 8, ∑ u ∈ Finset.range 8, |mI x u| ≤ 30610 := by decide +kernel

theorem mI_near : ∀ x < 8, ∀ u < 8, 0 < u → |10 * mI x u - kTable.getD ((2 * x + 1) * u % 32) 0| ≤ 19 := by decide +kernel

/-- The matrix of the exact transform, in the same scale. -/
noncomputable def iR (x u : Nat) : ℝ := 4096 * √2 * norm0 u * cos ((2 * x + 1) * u * π / 16)

theorem sqrt2_bounds : (1414213562 / 10 ^ 9 : ℝ) ≤ √2 ∧ √2 ≤ 1414213563 / 10 ^ 9 := by
  constructor
  · exact Real.le_sqrt_of_sq_le (by norm_num)
  · exact Real.sqrt_le_iff.2 ⟨by norm_num, by norm_num⟩

theorem cs_near_aux {c lo hi k : ℝ} (h : lo ≤ c ∧ c ≤ hi) (h0 : 0 ≤ lo) (h1 : k - 1 ≤ 40960 * (1414213562 / 10 ^ 9) * lo)
    (h2 : 40960 * (1414213563 / 10 ^ 9) * hi ≤ k + 1) : |40960 * √2 * c - k| ≤ 1 := by
  have hs := sqrt2_bounds
  have : (1414213562 / 10 ^ 9 : ℝ) * lo ≤ √2 * c := mul_le_mul hs.1 h.1 h0 (by positivity)
  have : √2 * c ≤ (1414213563 / 10 ^ 9 : ℝ) * hi := mul_le_mul hs.2 h.2 (h0.trans h.1) (by norm_num)
  rw [abs_le]
  constructor <;> linarith

theorem cs_near_pos {n : Nat} (h : n < 8) : |40960 * √2 * cs n - kTable.getD n 0| ≤ 1 := by
  have : n = 0 ∨ n = 1 ∨ n = 2 ∨ n = 3 ∨ n = 4 ∨ n = 5 ∨ n = 6 ∨ n = 7 := by omega
  rcases this with rfl | rfl | rfl | rfl | rfl | rfl | rfl | rfl <;> simp only [kTable, List.getD_cons_zero, List.getD_cons_succ]
  · exact cs_near_aux (lo := 1) (hi := 1) ⟨cs_zero.ge, cs_zero.le⟩ (by norm_num) (by norm_num) (by norm_num)
  · exact cs_near_aux cs1 (by norm_num) (by norm_num) (by norm_num)
  · exact cs_near_aux cs2 (by norm_num) (by norm_num) (by norm_num)
  · exact cs_near_aux cs3 (by norm_num) (by norm_num) (by norm_num)
  · exact cs_near_aux cs4 (by norm_num) (by norm_num) (by norm_num)
  · exact cs_near_aux cs5 (by norm_num) (by norm_num) (by norm_num)
  · exact cs_near_aux cs6 (by norm_num) (by norm_num) (by norm_num)
  · exact cs_near_aux cs7 (by norm_num) (by norm_num) (by norm_num)

theorem kTable_sub : ∀ n < 16, 8 < n → kTable.getD n 0 = - kTable.getD (16 - n) 0 := by decide +kernel
theorem kTable_half : ∀ n < 16, kTable.getD (n + 16) 0 = - kTable.getD n 0 := by decide +kernel

theorem cs_near (n : Nat) : |40960 * √2 * cs n - kTable.getD (n % 32) 0| ≤ 1 := by
  have key : ∀ m < 16, |40960 * √2 * cs m - kTable.getD m 0| ≤ 1 := by
    intro m hm
    rcases Nat.lt_trichotomy m 8 with h | h | h
    · exact cs_near_pos h
    · rw [h, cs_eight]
      simp [kTable]
    · have := cs_near_pos (n := 16 - m) (by omega)
      rw [cs_sub (show m + (16 - m) = 16 by omega), kTable_sub m hm h]
      rw [abs_sub_comm] at this
      push_cast
      rwa [show 40960 * √2 * -cs (16 - m) - -((kTable.getD (16 - m) 0 : ℤ) : ℝ) = (kTable.getD (16 - m) 0 : ℤ) - 40960 * √2 * cs (16 - m) by ring]
  rw [cs_red]
  split
  · rename_i h
    rw [show n % 32 = n % 16 by omega]
    exact key _ (by omega)
  · rename_i h
    have := key (n % 16) (by omega)
    rw [show n % 32 = n % 16 + 16 by omega, kTable_half _ (by omega)]
    rw [abs_sub_comm] at this
    push_cast
    rwa [show 40960 * √2 * -cs (n % 16) - -((kTable.getD (n % 16) 0 : ℤ) : ℝ) = (kTable.getD (n % 16) 0 : ℤ) - 40960 * √2 * cs (n % 16) by ring]

theorem mI_iR {x u : Nat} (hx : x < 8) (hu : u < 8) : |(mI x u : ℝ) - iR x u| ≤ 2 := by
  rcases Nat.eq_zero_or_pos u with rfl | h0
  · have : mI x 0 = 4096 := by
      have : x = 0 ∨ x = 1 ∨ x = 2 ∨ x = 3 ∨ x = 4 ∨ x = 5 ∨ x = 6 ∨ x = 7 := by omega
      rcases this with rfl | rfl | rfl | rfl | rfl | rfl | rfl | rfl <;> rfl
    rw [this]
    have h2 : √2 ≠ 0 := by positivity
    simp only [iR, norm0, if_true, Nat.cast_zero, mul_zero, zero_mul, zero_div, cos_zero]
    rw [mul_one, mul_assoc, mul_one_div_cancel h2]
    norm_num
  · have h1 := cs_near ((2 * x + 1) * u)
    have h2 : |((10 * mI x u - kTable.getD ((2 * x + 1) * u % 32) 0 : ℤ) : ℝ)| ≤ 19 := by
      rw [← Int.cast_abs]
      exact_mod_cast mI_near x hx u hu h0
    have e : iR x u = 4096 * √2 * cs ((2 * x + 1) * u) := by
      unfold iR cs norm0
      rw [if_neg (by omega)]
      push_cast
      ring
    rw [e]
    push_cast at h2
    rw [abs_le] at h1 h2 ⊢
    constructor <;> linarith [h1.1, h1.2, h2.1, h2.2]

theorem mI_abs' {x u : Nat} (hx : x < 8) (hu : u < 8) : |(mI x u : ℝ)| ≤ 5683 := by
  rw [← Int.cast_abs]
  exact_mod_cast mI_abs x hx u hu

theorem iR_abs {x u : Nat} (hx : x < 8) (hu : u < 8) : |iR x u| ≤ 5685 := by
  have h1 := mI_iR hx hu
  have h2 := mI_abs' hx hu
  rw [abs_le] at *
  constructor <;> linarith [h1.1, h1.2, h2.1, h2.2]

theorem mm_ii {x u y v : Nat} (hx : x < 8) (hu : u < 8) (hy : y < 8) (hv : v < 8) :
    |(mI x u : ℝ) * mI y v - iR x u * iR y v| ≤ 22736 := by
  have e : (mI x u : ℝ) * mI y v - iR x u * iR y v = mI x u * (mI y v - iR y v) + (mI x u - iR x u) * iR y v := by ring
  rw [e]
  refine (abs_add_le _ _).trans ?_
  rw [abs_mul, abs_mul]
  have h1 : |(mI x u : ℝ)| * |(mI y v : ℝ) - iR y v| ≤ 5683 * 2 := mul_le_mul (mI_abs' hx hu) (mI_iR hy hv) (abs_nonneg _) (by norm_num)
  have h2 : |(mI x u : ℝ) - iR x u| * |iR y v| ≤ 2 * 5685 := mul_le_mul (mI_iR hx hu) (iR_abs hy hv) (abs_nonneg _) (by norm_num)
  linarith

/-- A rounded quotient. -/
theorem round_div (z : Int) {n : Int} (hn : 0 < n) : |(((z + n) / (2 * n) : Int) : ℝ) - (z : ℝ) / (2 * n)| ≤ 1 / 2 := by
  have h1 := Int.emod_add_mul_ediv (z + n) (2 * n)
  have h2 := Int.emod_nonneg (z + n) (show 2 * n ≠ 0 by omega)
  have h3 := Int.emod_lt_of_pos (z + n) (show 0 < 2 * n by omega)
  have hn' : (0 : ℝ) < n := by exact_mod_cast hn
  have e1 : (((z + n) % (2 * n) : Int) : ℝ) + 2 * n * (((z + n) / (2 * n) : Int) : ℝ) = z + n := by exact_mod_cast h1
  have e2 : (0 : ℝ) ≤ (((z + n) % (2 * n) : Int) : ℝ) := by exact_mod_cast h2
  have e3 : (((z + n) % (2 * n) : Int) : ℝ) ≤ 2 * n := by exact_mod_cast h3.le
  have e4 : (z : ℝ) / (2 * n) * (2 * n) = z := div_mul_cancel₀ _ (by positivity)
  rw [abs_le]
  constructor
  · by_contra hc
    push Not at hc
    nlinarith
  · by_contra hc
    push Not at hc
    nlinarith

theorem colV_near (D : Nat → Int) {y : Nat} (hy : y < 8) (u : Nat) :
    |(colV D y u : ℝ) - (∑ v ∈ Finset.range 8, (mI y v : ℝ) * D (u + v * 8)) / 1024| ≤ 1 / 2 := by
  have := round_div (xf (oct fun k => D (u + k * 8)) y) (n := 512) (by norm_num)
  unfold colV
  rw [xf_sum _ hy] at *
  push_cast at this ⊢
  norm_num at this ⊢
  exact this

theorem idctV_near (D : Nat → Int) (y : Nat) {x : Nat} (hx : x < 8) :
    |(idctV D y x : ℝ) - 128 - (∑ u ∈ Finset.range 8, (mI x u : ℝ) * colV D y u) / 131072| ≤ 1 / 2 := by
  have := round_div (xf (oct fun k => colV D y k) x) (n := 65536) (by norm_num)
  have e : idctV D y x = (xf (oct fun k => colV D y k) x + 65536) / 131072 + 128 := by
    unfold idctV
    omega
  rw [e, xf_sum _ hx] at *
  push_cast at this ⊢
  norm_num at this ⊢
  exact this

theorem idct_scaled (D : Nat → Int) (y x : Nat) :
    idct (fun v u => (D (8 * v + u) : ℝ)) y x =
      (∑ u ∈ Finset.range 8, ∑ v ∈ Finset.range 8, iR x u * iR y v * D (u + v * 8)) / 134217728 := by
  unfold idct
  rw [Finset.sum_comm, eq_div_iff (by norm_num), Finset.mul_sum, Finset.sum_mul]
  refine Finset.sum_congr rfl fun u _ => ?_
  rw [Finset.mul_sum, Finset.sum_mul]
  refine Finset.sum_congr rfl fun v _ => ?_
  have h2 : √2 * √2 = 2 := mul_self_sqrt (by norm_num)
  rw [show u + v * 8 = 8 * v + u by ring]
  unfold iR
  have : 4096 * √2 * norm0 u * cos ((2 * (x : ℝ) + 1) * u * π / 16) * (4096 * √2 * norm0 v * cos ((2 * (y : ℝ) + 1) * v * π / 16)) =
    16777216 * (√2 * √2) * (norm0 u * cos ((2 * (x : ℝ) + 1) * u * π / 16) * (norm0 v * cos ((2 * (y : ℝ) + 1) * v * π / 16))) := by ring
  rw [this, h2]
  ring

theorem sum64 (f : Nat → ℝ) : ∑ u ∈ Finset.range 8, ∑ v ∈ Finset.range 8, f (u + v * 8) = ∑ k ∈ Finset.range 64, f k := by
  simp only [Finset.sum_range_succ, Finset.sum_range_zero, Nat.reduceMul, Nat.reduceAdd, Nat.zero_add, Nat.add_zero, Nat.zero_mul]
  ring

/-- The computed sample, before it is limited to a byte, and the exact one. -/
theorem idctV_exact (D : Nat → Int) {y x : Nat} (hy : y < 8) (hx : x < 8) :
    |(idctV D y x : ℝ) - (128 + idct (fun v u => (D (8 * v + u) : ℝ)) y x)| ≤ 617 / 1000 + (∑ k ∈ Finset.range 64, |(D k : ℝ)|) / 5900 := by
  have h1 := idctV_near D y hx
  have hr : |(∑ u ∈ Finset.range 8, (mI x u : ℝ) * colV D y u) / 131072 -
      (∑ u ∈ Finset.range 8, ∑ v ∈ Finset.range 8, (mI x u : ℝ) * mI y v * D (u + v * 8)) / 134217728| ≤ 30610 / 262144 := by
    have e : (∑ u ∈ Finset.range 8, (mI x u : ℝ) * colV D y u) / 131072 -
      (∑ u ∈ Finset.range 8, ∑ v ∈ Finset.range 8, (mI x u : ℝ) * mI y v * D (u + v * 8)) / 134217728 =
      (∑ u ∈ Finset.range 8, (mI x u : ℝ) * (colV D y u - (∑ v ∈ Finset.range 8, (mI y v : ℝ) * D (u + v * 8)) / 1024)) / 131072 := by
      have : ∀ u, (mI x u : ℝ) * (colV D y u - (∑ v ∈ Finset.range 8, (mI y v : ℝ) * D (u + v * 8)) / 1024) =
        mI x u * colV D y u - (∑ v ∈ Finset.range 8, (mI x u : ℝ) * mI y v * D (u + v * 8)) / 1024 := by
        intro u
        rw [mul_sub, mul_div_assoc', Finset.mul_sum]
        simp only [mul_assoc]
      simp only [this]
      rw [Finset.sum_sub_distrib]
      simp only [div_eq_mul_inv]
      rw [← Finset.sum_mul]
      ring
    rw [e, abs_div, show |(131072 : ℝ)| = 131072 by norm_num, div_le_iff₀ (by norm_num)]
    refine (Finset.abs_sum_le_sum_abs _ _).trans ?_
    have hs : ∑ u ∈ Finset.range 8, |(mI x u : ℝ) * (colV D y u - (∑ v ∈ Finset.range 8, (mI y v : ℝ) * D (u + v * 8)) / 1024)| ≤
        ∑ u ∈ Finset.range 8, |(mI x u : ℝ)| * (1 / 2) := by
      refine Finset.sum_le_sum fun u _ => ?_
      rw [abs_mul]
      exact mul_le_mul_of_nonneg_left (colV_near D hy u) (abs_nonneg _)
    refine hs.trans ?_
    rw [← Finset.sum_mul]
    have : (∑ u ∈ Finset.range 8, |(mI x u : ℝ)|) ≤ 30610 := by
      have := mI_row x hx
      have h : ((∑ u ∈ Finset.range 8, |mI x u| : ℤ) : ℝ) ≤ 30610 := by exact_mod_cast this
      push_cast at h
      exact h
    linarith
  have hm : |(∑ u ∈ Finset.range 8, ∑ v ∈ Finset.range 8, (mI x u : ℝ) * mI y v * D (u + v * 8)) / 134217728 -
      idct (fun v u => (D (8 * v + u) : ℝ)) y x| ≤ (∑ k ∈ Finset.range 64, |(D k : ℝ)|) / 5900 := by
    rw [idct_scaled, ← sub_div, ← Finset.sum_sub_distrib, abs_div, show |(134217728 : ℝ)| = 134217728 by norm_num]
    simp only [← Finset.sum_sub_distrib, ← sub_mul]
    have : |∑ u ∈ Finset.range 8, ∑ v ∈ Finset.range 8, ((mI x u : ℝ) * mI y v - iR x u * iR y v) * D (u + v * 8)| ≤
        22736 * ∑ k ∈ Finset.range 64, |(D k : ℝ)| := by
      rw [← sum64 fun k => |(D k : ℝ)|, Finset.mul_sum]
      refine (Finset.abs_sum_le_sum_abs _ _).trans (Finset.sum_le_sum fun u hu => ?_)
      rw [Finset.mul_sum]
      refine (Finset.abs_sum_le_sum_abs _ _).trans (Finset.sum_le_sum fun v hv => ?_)
      rw [abs_mul]
      exact mul_le_mul_of_nonneg_right (mm_ii hx (Finset.mem_range.1 hu) hy (Finset.mem_range.1 hv)) (abs_nonneg _)
    have hS : 0 ≤ ∑ k ∈ Finset.range 64, |(D k : ℝ)| := Finset.sum_nonneg fun k _ => abs_nonneg _
    rw [div_le_div_iff₀ (by norm_num) (by norm_num)]
    nlinarith
  rw [abs_le] at *
  constructor <;> linarith [h1.1, h1.2, hr.1, hr.2, hm.1, hm.2]

end FlatCV
