/-
Quantisation: the numbers in a block are the coefficients of the cosine transform, divided by the step and rounded.
-/
import Verif.Lemmas.JpegPlace
import Verif.Lemmas.BlurWeight

namespace FlatCV
open Model

set_option linter.unusedSimpArgs false

/-! ### The size of a coefficient -/

theorem cos_sum_sq {u : ℕ} (h0 : u ≠ 0) (h : u < 8) : ∑ x ∈ Finset.range 8, cs ((2 * x + 1) * u) ^ 2 = 4 := by
  have k : ∀ n, cs n ^ 2 = (cs (2 * n) + 1) / 2 := fun n => by have := cs_sq n; linarith
  simp only [k]
  obtain ⟨e0, e8, e10, e12, e14⟩ := cs_even
  match u, h with
  | 1, _ | 2, _ | 3, _ | 4, _ | 5, _ | 6, _ | 7, _ =>
    simp only [Finset.sum_range_succ, Finset.sum_range_zero, Nat.reduceAdd, Nat.reduceMul]
    simp only [cs_red 16, cs_red 18, cs_red 20, cs_red 22, cs_red 24, cs_red 26, cs_red 28, cs_red 30, cs_red 32, cs_red 34, cs_red 36,
      cs_red 38, cs_red 40, cs_red 42, cs_red 44, cs_red 46, cs_red 48, cs_red 50, cs_red 52, cs_red 54, cs_red 56, cs_red 58, cs_red 60,
      cs_red 62, cs_red 64, cs_red 66, cs_red 68, cs_red 70, cs_red 72, cs_red 74, cs_red 76, cs_red 78, cs_red 80, cs_red 82, cs_red 84,
      cs_red 86, cs_red 88, cs_red 90, cs_red 92, cs_red 94, cs_red 96, cs_red 98, cs_red 100, cs_red 102, cs_red 104, cs_red 106, cs_red 108,
      cs_red 110, cs_red 112, cs_red 120, cs_red 126, cs_red 130, cs_red 132, cs_red 140, cs_red 150, cs_red 154, cs_red 156, cs_red 180, cs_red 182,
      cs_red 210, Nat.reduceMod, Nat.reduceLT, if_true, if_false, e0, e8, e10, e12, e14]
    ring

theorem norm0_nonneg (u : ℕ) : 0 ≤ Jpg.norm0 u := by
  unfold Jpg.norm0
  split <;> positivity

theorem cos_sum_abs {u : ℕ} (h : u < 8) : Jpg.norm0 u * ∑ x ∈ Finset.range 8, |cs ((2 * x + 1) * u)| ≤ 5.667 := by
  by_cases h0 : u = 0
  · subst h0
    simp only [Jpg.norm0, Nat.mul_zero, cs_zero, if_true]
    rw [sqrt_two]
    have := cs4.1
    have h4 : 0 < cs 4 := by linarith
    simp only [abs_one, Finset.sum_const, Finset.card_range, nsmul_eq_mul]
    rw [div_mul_eq_mul_div, div_le_iff₀ (by linarith)]
    push_cast
    linarith
  · have k : ∀ z : ℝ, |z| ≤ 0.75 * z ^ 2 + 1 / 3 := by
      intro z
      rw [← sq_abs]
      nlinarith [sq_nonneg (|z| - 2 / 3)]
    have h1 : ∑ x ∈ Finset.range 8, |cs ((2 * x + 1) * u)| ≤ ∑ x ∈ Finset.range 8, (0.75 * cs ((2 * x + 1) * u) ^ 2 + 1 / 3) :=
      Finset.sum_le_sum fun x _ => k _
    rw [Finset.sum_add_distrib, ← Finset.mul_sum, cos_sum_sq h0 h] at h1
    simp only [Finset.sum_const, Finset.card_range, nsmul_eq_mul] at h1
    push_cast at h1
    rw [Jpg.norm0, if_neg h0]
    linarith

theorem dct_bound {s : ℕ → ℕ → ℝ} {m : ℝ} (hs : ∀ y < 8, ∀ x < 8, |s y x| ≤ m) (hm : 0 ≤ m) {v u : ℕ} (hv : v < 8) (hu : u < 8) :
    |Jpg.dct s v u| ≤ 8.03 * m := by
  have e : ∀ y u : ℕ, Real.cos ((2 * y + 1) * u * Real.pi / 16) = cs ((2 * y + 1) * u) := by
    intro y u
    unfold cs
    push_cast
    rfl
  unfold Jpg.dct
  simp only [e]
  rw [abs_mul, abs_mul, abs_mul, abs_of_nonneg (norm0_nonneg u), abs_of_nonneg (norm0_nonneg v),
    abs_of_nonneg (show (0 : ℝ) ≤ 1 / 4 by norm_num)]
  have h1 : |∑ y ∈ Finset.range 8, ∑ x ∈ Finset.range 8, s y x * cs ((2 * x + 1) * u) * cs ((2 * y + 1) * v)| ≤
      m * (∑ x ∈ Finset.range 8, |cs ((2 * x + 1) * u)|) * ∑ y ∈ Finset.range 8, |cs ((2 * y + 1) * v)| := by
    refine (Finset.abs_sum_le_sum_abs _ _).trans ?_
    rw [Finset.mul_sum]
    refine Finset.sum_le_sum fun y hy => ?_
    refine (Finset.abs_sum_le_sum_abs _ _).trans ?_
    rw [Finset.mul_sum, Finset.sum_mul]
    refine Finset.sum_le_sum fun x hx => ?_
    rw [abs_mul, abs_mul]
    have := hs y (Finset.mem_range.1 hy) x (Finset.mem_range.1 hx)
    gcongr
  have a := cos_sum_abs hu
  have b := cos_sum_abs hv
  have a0 : 0 ≤ Jpg.norm0 u * ∑ x ∈ Finset.range 8, |cs ((2 * x + 1) * u)| :=
    mul_nonneg (norm0_nonneg u) (Finset.sum_nonneg fun _ _ => abs_nonneg _)
  have b0 : 0 ≤ Jpg.norm0 v * ∑ y ∈ Finset.range 8, |cs ((2 * y + 1) * v)| :=
    mul_nonneg (norm0_nonneg v) (Finset.sum_nonneg fun _ _ => abs_nonneg _)
  have h2 : (Jpg.norm0 u * ∑ x ∈ Finset.range 8, |cs ((2 * x + 1) * u)|) * (Jpg.norm0 v * ∑ y ∈ Finset.range 8, |cs ((2 * y + 1) * v)|)
      ≤ 5.667 * 5.667 := mul_le_mul a b b0 (by norm_num)
  calc 1 / 4 * Jpg.norm0 u * Jpg.norm0 v *
        |∑ y ∈ Finset.range 8, ∑ x ∈ Finset.range 8, s y x * cs ((2 * x + 1) * u) * cs ((2 * y + 1) * v)|
      ≤ 1 / 4 * Jpg.norm0 u * Jpg.norm0 v *
        (m * (∑ x ∈ Finset.range 8, |cs ((2 * x + 1) * u)|) * ∑ y ∈ Finset.range 8, |cs ((2 * y + 1) * v)|) := by
        have := norm0_nonneg u
        have := norm0_nonneg v
        gcongr
    _ = m / 4 * ((Jpg.norm0 u * ∑ x ∈ Finset.range 8, |cs ((2 * x + 1) * u)|) *
        (Jpg.norm0 v * ∑ y ∈ Finset.range 8, |cs ((2 * y + 1) * v)|)) := by ring
    _ ≤ m / 4 * (5.667 * 5.667) := by gcongr
    _ ≤ 8.03 * m := by linarith

/-- The transform of two blocks that are close to each other. -/
theorem dct_close {s t : ℕ → ℕ → ℝ} {d : ℝ} (h : ∀ y < 8, ∀ x < 8, |s y x - t y x| ≤ d) (hd : 0 ≤ d) {v u : ℕ} (hv : v < 8) (hu : u < 8) :
    |Jpg.dct s v u - Jpg.dct t v u| ≤ 8.03 * d := by
  have : Jpg.dct s v u - Jpg.dct t v u = Jpg.dct (fun y x => s y x - t y x) v u := by
    unfold Jpg.dct
    rw [← mul_sub, ← Finset.sum_sub_distrib]
    congr 1
    refine Finset.sum_congr rfl fun y _ => ?_
    rw [← Finset.sum_sub_distrib]
    refine Finset.sum_congr rfl fun x _ => ?_
    ring
  rw [this]
  exact dct_bound h hd hv hu

/-! ### Relative errors -/

/-- The float `d` is `x > 0` up to the relative error `r / 2^24`. -/
def RelNear (d : Dbl) (x r : ℝ) : Prop := ∃ q : ℚ, d = .fin q ∧ |(q : ℝ) - x| ≤ r / 16777216 * x

theorem RelNear.lift {z : ℚ} {x r : ℝ} (h : |(z : ℝ) - x| ≤ r / 16777216 * x) (hx : 1 / 10 ^ 6 ≤ x) (hx' : x ≤ 10 ^ 6) (hr : r ≤ 20) :
    RelNear (Fmt.b32.lift z) x (r + 1.1) := by
  have hz : |(z : ℝ)| ≤ 1.0001 * x := by
    have := abs_add_le x ((z : ℝ) - x)
    rw [show x + ((z : ℝ) - x) = z by ring, abs_of_nonneg (by linarith : 0 ≤ x)] at this
    have : r / 16777216 * x ≤ 20 / 16777216 * x := by
      have : 0 ≤ x := by linarith
      gcongr
    linarith
  obtain ⟨q, e, hq⟩ := lift_near hz (by linarith)
  refine ⟨q, e, ?_⟩
  have ht : tiny ≤ 0.001 / 16777216 * x := by
    have : tiny ≤ 1 / 10 ^ 17 := by unfold tiny; norm_num
    linarith
  rw [show (q : ℝ) - x = (q - z) + (z - x) by ring]
  exact (abs_add_le _ _).trans (by linarith)

theorem RelNear.mul {a b : Dbl} {x y r s : ℝ} (ha : RelNear a x r) (hb : RelNear b y s) (hx : 0 < x) (hy : 0 < y) (hxy : 1 / 10 ^ 6 ≤ x * y)
    (hxy' : x * y ≤ 10 ^ 6) (hr : r ≤ 9) (hs : s ≤ 9) (hr0 : 0 ≤ r) (hs0 : 0 ≤ s) : RelNear (fmul a b) (x * y) (r + s + 1.11) := by
  obtain ⟨p, rfl, h1⟩ := ha
  obtain ⟨q, rfl, h2⟩ := hb
  have hz : |((p * q : ℚ) : ℝ) - x * y| ≤ (r + s + 0.01) / 16777216 * (x * y) := by
    push_cast
    rw [show (p : ℝ) * q - x * y = (p - x) * (q - y) + (p - x) * y + x * (q - y) by ring]
    have k1 : |((p : ℝ) - x) * (q - y)| ≤ (r / 16777216 * x) * (s / 16777216 * y) := by
      rw [abs_mul]
      exact mul_le_mul h1 h2 (abs_nonneg _) (by positivity)
    have k2 : |((p : ℝ) - x) * y| ≤ (r / 16777216 * x) * y := by
      rw [abs_mul, abs_of_pos hy]
      gcongr
    have k3 : |x * ((q : ℝ) - y)| ≤ x * (s / 16777216 * y) := by
      rw [abs_mul, abs_of_pos hx]
      gcongr
    have k4 : (r / 16777216 * x) * (s / 16777216 * y) ≤ 0.01 / 16777216 * (x * y) := by
      have : r * s ≤ 9 * 9 := mul_le_mul hr hs hs0 (by norm_num)
      have h3 : (r / 16777216 * x) * (s / 16777216 * y) = (r * s) / 16777216 / 16777216 * (x * y) := by ring
      rw [h3]
      have : r * s / 16777216 / 16777216 ≤ 0.01 / 16777216 := by linarith
      gcongr
    have := abs_add_le (((p : ℝ) - x) * (q - y) + (p - x) * y) (x * (q - y))
    have := abs_add_le (((p : ℝ) - x) * (q - y)) ((p - x) * y)
    have e : (r + s + 0.01) / 16777216 * (x * y) = (r / 16777216 * x) * y + x * (s / 16777216 * y) + 0.01 / 16777216 * (x * y) := by ring
    rw [e]
    linarith
  have := RelNear.lift hz hxy hxy' (by linarith)
  rw [show r + s + 0.01 + 1.1 = r + s + 1.11 by ring] at this
  exact this

theorem RelNear.mono {d : Dbl} {x r s : ℝ} (h : RelNear d x r) (hx : 0 ≤ x) (hrs : r ≤ s) : RelNear d x s := by
  obtain ⟨q, e, h⟩ := h
  exact ⟨q, e, h.trans (by gcongr)⟩

theorem RelNear.inv {b : Dbl} {y r : ℝ} (hb : RelNear b y r) (hy : 1 / 1000 ≤ y) (hy' : y ≤ 10 ^ 6) (hr : r ≤ 12) (hr0 : 0 ≤ r) :
    ∃ f, Dbl.div Fmt.b32 (.fin 1) b = .ok f ∧ RelNear f (1 / y) (r + 1.11) := by
  obtain ⟨q, rfl, h⟩ := hb
  have hy0 : 0 < y := by linarith
  have h12 : r / 16777216 * y ≤ 12 / 16777216 * y := by gcongr
  have hq : 0.999 * y ≤ (q : ℝ) := by
    have := (abs_le.1 h).1
    linarith
  have hq0 : (0 : ℝ) < q := by linarith
  have hqne : q ≠ 0 := by
    intro h
    rw [h] at hq0
    norm_num at hq0
  refine ⟨Fmt.b32.lift (1 / q), ?_, ?_⟩
  · simp only [Dbl.div]
    rw [if_neg hqne]
  · have hz : |((1 / q : ℚ) : ℝ) - 1 / y| ≤ (r + 0.01) / 16777216 * (1 / y) := by
      push_cast
      have e : 1 / (q : ℝ) - 1 / y = (y - q) / (q * y) := by field_simp
      rw [e, abs_div, abs_sub_comm, abs_of_pos (by positivity : (0 : ℝ) < q * y), div_le_iff₀ (by positivity)]
      have e2 : (r + 0.01) / 16777216 * (1 / y) * (q * y) = (r + 0.01) / 16777216 * q := by field_simp
      rw [e2]
      have h3 : (1 - 12 / 16777216) * y ≤ (q : ℝ) := by
        have := (abs_le.1 h).1
        linarith
      have h4 : r * y ≤ (r + 0.01) * q := by
        have : r * ((1 - 12 / 16777216) * y) ≤ r * q := by gcongr
        have : r * y ≤ 12 * y := by gcongr
        have : r * ((1 - 12 / 16777216) * y) = r * y - 12 / 16777216 * (r * y) := by ring
        linarith
      have e3 : r / 16777216 * y = r * y / 16777216 := by ring
      have e4 : (r + 0.01) / 16777216 * (q : ℝ) = (r + 0.01) * q / 16777216 := by ring
      rw [e3] at h
      rw [e4]
      linarith
    have hi : 1 / y ≤ 1000 := by rw [div_le_iff₀ hy0]; linarith
    have hi' : 1 / 10 ^ 6 ≤ 1 / y := by
      apply one_div_le_one_div_of_le hy0 hy'
    have := RelNear.lift hz hi' (by linarith) (by linarith)
    rw [show r + 0.01 + 1.1 = r + 1.11 by ring] at this
    exact this

/-! ### The table of scales -/

theorem rel_const {l : ℚ} {x : ℝ} (h : |(l : ℝ) - x| ≤ 0.5 / 16777216 * x) (hx : 1 / 10 ^ 6 ≤ x) (hx' : x ≤ 10 ^ 6) : RelNear (flt l) x 1.6 := by
  have := RelNear.lift h hx hx' (by norm_num)
  rw [show (0.5 : ℝ) + 1.1 = 1.6 by norm_num] at this
  exact this

theorem aanScale_bounds {k : ℕ} (h : k < 8) : 0.78036 ≤ aanScale k ∧ aanScale k ≤ 4 := by
  unfold aanScale
  have h1 := cs1
  have h2 := cs2
  have h3 := cs3
  have h4 := cs4
  have h5 := cs5
  have h6 := cs6
  have h7 := cs7
  match k, h with
  | 0, _ => rw [if_pos rfl]; constructor <;> linarith
  | 1, _ | 2, _ | 3, _ | 4, _ | 5, _ | 6, _ | 7, _ => rw [if_neg (by norm_num)]; constructor <;> linarith

theorem aasf_rel {k : ℕ} (h : k < 8) : ∃ d, aasf[k]? = some d ∧ RelNear d (aanScale k) 4.31 := by
  have h1 := cs1
  have h2 := cs2
  have h3 := cs3
  have h4 := cs4
  have h5 := cs5
  have h6 := cs6
  have h7 := cs7
  have hsq : 2 * cs 4 ^ 2 = 1 := by
    have := cs_sq 4
    rw [show 2 * 4 = 8 from rfl, cs_eight] at this
    linarith
  have r8 : RelNear (flt (2828427125 / 1000000000)) (4 * cs 4) 1.6 := by
    refine rel_const ?_ (by linarith) (by linarith)
    push_cast
    rw [abs_le]
    constructor <;> linarith
  have key : ∀ {l : ℚ} {x : ℝ}, |(l : ℝ) - x| ≤ 0.5 / 16777216 * x → 0.2 ≤ x → x ≤ 2 → x * (4 * cs 4) = aanScale k →
      RelNear (fmul (flt l) (flt (2828427125 / 1000000000))) (aanScale k) 4.31 := by
    intro l x hl hx hx' e
    rw [← e]
    have b := aanScale_bounds h
    rw [← e] at b
    have := RelNear.mul (rel_const hl (by linarith) (by linarith)) r8 (by linarith) (by linarith) (by linarith) (by linarith) (by norm_num)
      (by norm_num) (by norm_num) (by norm_num)
    rw [show (1.6 : ℝ) + 1.6 + 1.11 = 4.31 by norm_num] at this
    exact this
  have prod : ∀ {n : ℕ} {lo hi : ℝ}, lo ≤ cs n → cs n ≤ hi → 0 ≤ lo →
      lo * (1.414213562) ≤ 2 * cs 4 * cs n ∧ 2 * cs 4 * cs n ≤ hi * 1.414213564 := by
    intro n lo hi ha hb hlo
    have a : (1.414213562 : ℝ) ≤ 2 * cs 4 := by linarith
    have b : 2 * cs 4 ≤ 1.414213564 := by linarith
    constructor
    · rw [mul_comm lo]
      exact mul_le_mul a ha hlo (by linarith)
    · rw [mul_comm hi]
      exact mul_le_mul b hb (hlo.trans ha) (by linarith)
  have e : ∀ n, 2 * cs 4 * cs n * (4 * cs 4) = 4 * cs n := by
    intro n
    rw [show 2 * cs 4 * cs n * (4 * cs 4) = 4 * cs n * (2 * cs 4 ^ 2) by ring, hsq, mul_one]
  match k, h with
  | 0, _ =>
    refine ⟨_, rfl, key (x := 1) ?_ (by norm_num) (by norm_num) (by rw [aanScale, if_pos rfl]; ring)⟩
    norm_num
  | 1, _ =>
    have p := prod h1.1 h1.2 (by norm_num)
    refine ⟨_, rfl, key (x := 2 * cs 4 * cs 1) ?_ (by linarith) (by linarith) (by rw [aanScale, if_neg (by norm_num), e])⟩
    push_cast
    rw [abs_le]
    constructor <;> linarith
  | 2, _ =>
    have p := prod h2.1 h2.2 (by norm_num)
    refine ⟨_, rfl, key (x := 2 * cs 4 * cs 2) ?_ (by linarith) (by linarith) (by rw [aanScale, if_neg (by norm_num), e])⟩
    push_cast
    rw [abs_le]
    constructor <;> linarith
  | 3, _ =>
    have p := prod h3.1 h3.2 (by norm_num)
    refine ⟨_, rfl, key (x := 2 * cs 4 * cs 3) ?_ (by linarith) (by linarith) (by rw [aanScale, if_neg (by norm_num), e])⟩
    push_cast
    rw [abs_le]
    constructor <;> linarith
  | 4, _ =>
    refine ⟨_, rfl, key (x := 2 * cs 4 * cs 4) ?_ (by nlinarith) (by nlinarith) (by rw [aanScale, if_neg (by norm_num), e])⟩
    rw [show 2 * cs 4 * cs 4 = 1 by nlinarith]
    norm_num
  | 5, _ =>
    have p := prod h5.1 h5.2 (by norm_num)
    refine ⟨_, rfl, key (x := 2 * cs 4 * cs 5) ?_ (by linarith) (by linarith) (by rw [aanScale, if_neg (by norm_num), e])⟩
    push_cast
    rw [abs_le]
    constructor <;> linarith
  | 6, _ =>
    have p := prod h6.1 h6.2 (by norm_num)
    refine ⟨_, rfl, key (x := 2 * cs 4 * cs 6) ?_ (by linarith) (by linarith) (by rw [aanScale, if_neg (by norm_num), e])⟩
    push_cast
    rw [abs_le]
    constructor <;> linarith
  | 7, _ =>
    have p := prod h7.1 h7.2 (by norm_num)
    refine ⟨_, rfl, key (x := 2 * cs 4 * cs 7) ?_ (by linarith) (by linarith) (by rw [aanScale, if_neg (by norm_num), e])⟩
    push_cast
    rw [abs_le]
    constructor <;> linarith

theorem zigzag_facts : ∀ j < 64, ∃ z, jpgZigZag[j]? = some z ∧ z < 64 ∧ Jpg.zigzag.getD z (0, 0) = (j / 8, j % 8) := by decide +kernel

theorem zigzag_inv : ∀ k < 64, (Jpg.zigzag.getD k (0, 0)).1 < 8 ∧ (Jpg.zigzag.getD k (0, 0)).2 < 8 ∧
    jpgZigZag[8 * (Jpg.zigzag.getD k (0, 0)).1 + (Jpg.zigzag.getD k (0, 0)).2]? = some k := by decide +kernel

/-- `fdtbl_Y`, `fdtbl_UV`. -/
theorem scaleTable_ok {table : List UInt8} (hl : table.length = 64) (ht : ∀ k < 64, 1 ≤ (table.getD k 0).toNat) :
    ∃ f, scaleTable table = .ok (fnTab 64 f) ∧ ∀ k < 64,
      RelNear (f (8 * (Jpg.zigzag.getD k (0, 0)).1 + (Jpg.zigzag.getD k (0, 0)).2))
        (1 / ((table.getD k 0).toNat * (aanScale (Jpg.zigzag.getD k (0, 0)).1 * aanScale (Jpg.zigzag.getD k (0, 0)).2))) 13 := by
  have key : ∀ j, ∃ f : Dbl, j < 64 → ∃ z q r c, jpgZigZag[j]? = some z ∧ table[z]? = some q ∧ aasf[j / 8]? = some r ∧
      aasf[j % 8]? = some c ∧ Dbl.div Fmt.b32 (.fin 1) (fmul (fmul (.fin q.toNat) r) c) = .ok f ∧
      RelNear f (1 / ((table.getD z 0).toNat * (aanScale (j / 8) * aanScale (j % 8)))) 13 := by
    intro j
    by_cases hj : j < 64
    swap
    · exact ⟨.nan, fun h => absurd h hj⟩
    obtain ⟨z, hz, hz', _⟩ := zigzag_facts j hj
    have hq : table[z]? = some (table.getD z 0) := by
      rw [List.getD_eq_getElem?_getD, List.getElem?_eq_getElem (by omega)]
      rfl
    obtain ⟨r, hr, hr'⟩ := aasf_rel (k := j / 8) (by omega)
    obtain ⟨c, hc, hc'⟩ := aasf_rel (k := j % 8) (by omega)
    have br := aanScale_bounds (k := j / 8) (by omega)
    have bc := aanScale_bounds (k := j % 8) (by omega)
    have h1 : (1 : ℝ) ≤ ((table.getD z 0).toNat : ℝ) := by exact_mod_cast ht z hz'
    have h2 : ((table.getD z 0).toNat : ℝ) ≤ 255 := by
      have := (table.getD z 0).toNat_lt
      have : (table.getD z 0).toNat ≤ 255 := by omega
      exact_mod_cast this
    generalize hQ : ((table.getD z 0).toNat : ℝ) = Q at h1 h2
    have rq : RelNear (.fin (table.getD z 0).toNat) Q 0 := ⟨_, rfl, by rw [← hQ]; simp⟩
    have b1 : 0.78036 ≤ Q * aanScale (j / 8) := by nlinarith
    have b2 : Q * aanScale (j / 8) ≤ 1020 := by nlinarith
    have r1 := RelNear.mul rq hr' (by linarith) (by linarith) (by linarith) (by linarith) (by norm_num) (by norm_num) (by norm_num)
      (by norm_num)
    have b3 : 0.6 ≤ Q * aanScale (j / 8) * aanScale (j % 8) := by nlinarith
    have b4 : Q * aanScale (j / 8) * aanScale (j % 8) ≤ 4080 := by nlinarith
    have r2 := RelNear.mul r1 hc' (by linarith) (by linarith) (by linarith) (by linarith) (by norm_num) (by norm_num) (by norm_num)
      (by norm_num)
    obtain ⟨f, e, r3⟩ := RelNear.inv r2 (by linarith) (by linarith) (by norm_num) (by norm_num)
    refine ⟨f, fun _ => ⟨z, _, r, c, hz, hq, hr, hc, e, ?_⟩⟩
    rw [mul_assoc] at r3
    have pos : 0 < Q * (aanScale (j / 8) * aanScale (j % 8)) := by rw [← mul_assoc]; linarith
    rw [hQ]
    exact r3.mono (by positivity) (by norm_num)
  choose f hf using key
  refine ⟨f, ?_, ?_⟩
  · unfold scaleTable
    have h : Ok (forN 64 (List.replicate 64 none) fun k t => do
        let z ← rdIn jpgZigZag k
        let q ← rdIn table z
        let r ← rdIn aasf (k / 8)
        let c ← rdIn aasf (k % 8)
        let f ← Dbl.div Fmt.b32 (.fin 1) (fmul (fmul (.fin q.toNat) r) c)
        wr t k f) (Filled (fnTab 64 f) fun k => False ∨ ∃ i, i < 64 ∧ k = i) := by
      refine Filled.loop (fun i k => k = i) (Filled.start' _ (by rw [fnTab_length])) ?_
      intro j hj V t hV
      obtain ⟨z, q, r, c, h1, h2, h3, h4, h5, _⟩ := hf j hj
      rw [rdIn_ok h1, ok_bind, rdIn_ok h2, ok_bind, rdIn_ok h3, ok_bind, rdIn_ok h4, ok_bind, h5, ok_bind]
      exact hV.wr (fnTab_get f hj)
    obtain ⟨t, e, h⟩ := h
    rw [e, ok_bind, h.done (fun k hk => Or.inr ⟨k, by rw [fnTab_length] at hk; exact hk, rfl⟩), asInput_map_some]
  · intro k hk
    obtain ⟨h1, h2, h3⟩ := zigzag_inv k hk
    obtain ⟨z, q, r, c, e, _, _, _, _, h⟩ := hf (8 * (Jpg.zigzag.getD k (0, 0)).1 + (Jpg.zigzag.getD k (0, 0)).2) (by omega)
    rw [h3, Option.some.injEq] at e
    subst e
    rw [show (8 * (Jpg.zigzag.getD k (0, 0)).1 + (Jpg.zigzag.getD k (0, 0)).2) / 8 = (Jpg.zigzag.getD k (0, 0)).1 by omega,
      show (8 * (Jpg.zigzag.getD k (0, 0)).1 + (Jpg.zigzag.getD k (0, 0)).2) % 8 = (Jpg.zigzag.getD k (0, 0)).2 by omega] at h
    exact h

/-! ### Rounding -/

theorem trunc_half {q r : ℚ} {n : ℝ} (hq : 0 ≤ q) (h : |(r : ℝ) - (q + 1 / 2)| ≤ n) (hn : n ≤ 1 / 2) : |(trunc r : ℝ) - q| ≤ 1 / 2 + n := by
  have hq' : (0 : ℝ) ≤ q := by exact_mod_cast hq
  obtain ⟨h1, h2⟩ := abs_le.1 h
  have hr : (0 : ℝ) ≤ r := by linarith
  have hr' : 0 ≤ r := by exact_mod_cast hr
  rw [trunc_nonneg hr']
  have a : ((⌊r⌋ : ℤ) : ℝ) ≤ r := by exact_mod_cast Int.floor_le r
  have b : (r : ℝ) < (⌊r⌋ : ℤ) + 1 := by exact_mod_cast Int.lt_floor_add_one r
  rw [abs_le]
  constructor <;> linarith

theorem trunc_neg (r : ℚ) : trunc (-r) = - trunc r := by
  unfold trunc
  rcases lt_trichotomy r 0 with h | h | h
  · rw [if_pos (by linarith), if_neg (by linarith), Int.floor_neg]
  · subst h
    simp
  · rw [if_neg (by linarith), if_pos (by linarith), Int.ceil_neg]

theorem quantOne_ok {c f : Dbl} {F S e : ℝ} {Q : ℕ} (hc : ∃ p : ℚ, c = .fin p ∧ |(p : ℝ) - S * F| ≤ e) (hf : RelNear f (1 / (Q * S)) 13)
    (hF : |F| ≤ 1040) (he : e ≤ 0.01635) (hS : 0.6089 ≤ S) (hQ : 1 ≤ Q) (hQ' : Q ≤ 255) :
    ∃ z, quantOne c f = .ok z ∧ |(Q : ℝ) * z - F| ≤ Q / 2 + 0.028 := by
  obtain ⟨p, rfl, hp⟩ := hc
  obtain ⟨q, rfl, hq⟩ := hf
  have q1 : (1 : ℝ) ≤ Q := by exact_mod_cast hQ
  have q2 : (Q : ℝ) ≤ 255 := by exact_mod_cast hQ'
  have t0 := tiny_pos
  have t1 := tiny_le
  have e0 : 0 ≤ e := (abs_nonneg _).trans hp
  have hQS : 0 < Q * S := by positivity
  have k1 : |(Q : ℝ) * S * q - 1| ≤ 13 / 16777216 := by
    have : (Q : ℝ) * S * q - 1 = Q * S * (q - 1 / (Q * S)) := by field_simp
    rw [this, abs_mul, abs_of_pos hQS]
    calc Q * S * |(q : ℝ) - 1 / (Q * S)| ≤ Q * S * (13 / 16777216 * (1 / (Q * S))) := by gcongr
      _ = 13 / 16777216 := by field_simp
  have k2 : |(Q : ℝ) * q| ≤ 1.6424 := by
    have h := (abs_le.1 k1)
    rw [abs_le]
    have h1 : (Q * q : ℝ) * S ≤ 1.000001 := by nlinarith
    have h2 : (0.99 : ℝ) ≤ (Q * q : ℝ) * S := by nlinarith
    have h3 : (0 : ℝ) ≤ Q * q := by
      by_contra hc
      nlinarith
    constructor
    · linarith
    · nlinarith
  have k3 : |(Q : ℝ) * (p * q) - F| ≤ 0.02686 + 1040 * (13 / 16777216) := by
    rw [show (Q : ℝ) * (p * q) - F = Q * q * (p - S * F) + F * (Q * S * q - 1) by ring]
    refine (abs_add_le _ _).trans ?_
    rw [abs_mul (Q * q : ℝ), abs_mul F]
    have a1 : |(Q : ℝ) * q| * |(p : ℝ) - S * F| ≤ 1.6424 * 0.01635 := mul_le_mul k2 (hp.trans he) (abs_nonneg _) (by norm_num)
    have a2 : |F| * |(Q : ℝ) * S * q - 1| ≤ 1040 * (13 / 16777216) := mul_le_mul hF k1 (abs_nonneg _) (by norm_num)
    linarith
  have k4 : |(Q : ℝ) * (p * q)| ≤ 1041 := by
    have := abs_add_le F ((Q : ℝ) * (p * q) - F)
    rw [show F + ((Q : ℝ) * (p * q) - F) = (Q : ℝ) * (p * q) by ring] at this
    linarith
  have k5 : |((p * q : ℚ) : ℝ)| ≤ 1041 / Q := by
    rw [le_div_iff₀ (by linarith)]
    push_cast
    rw [abs_mul, abs_of_pos (by linarith : (0 : ℝ) < Q)] at k4
    linarith
  have k6 : (1041 : ℝ) / Q ≤ 1041 := by
    rw [div_le_iff₀ (by linarith)]
    nlinarith
  obtain ⟨v, hv, hv'⟩ := lift_near k5 (by linarith)
  have em : fmul (.fin p) (.fin q) = .fin v := hv
  have k7 : |(v : ℝ)| ≤ 1042 / Q := by
    have := abs_add_le ((p * q : ℚ) : ℝ) (v - ((p * q : ℚ) : ℝ))
    rw [show ((p * q : ℚ) : ℝ) + (v - ((p * q : ℚ) : ℝ)) = v by ring] at this
    have e1 : (1042 : ℝ) / Q = 1041 / Q + 1 / Q := by ring
    have e2 : (1 / 255 : ℝ) ≤ 1 / Q := one_div_le_one_div_of_le (by linarith) q2
    rw [e1]
    linarith
  have k8 : |(Q : ℝ) * v - F| ≤ 0.0277317 := by
    have e1 : (Q : ℝ) * v - F = Q * (v - ((p * q : ℚ) : ℝ)) + (Q * (p * q) - F) := by push_cast; ring
    rw [e1]
    refine (abs_add_le _ _).trans ?_
    rw [abs_mul, abs_of_pos (by linarith : (0 : ℝ) < Q)]
    have : (Q : ℝ) * |(v : ℝ) - ((p * q : ℚ) : ℝ)| ≤ Q * (1041 / Q / 16777216 + tiny) := by gcongr
    have e2 : (Q : ℝ) * (1041 / Q / 16777216 + tiny) = 1041 / 16777216 + Q * tiny := by field_simp
    have : (Q : ℝ) * tiny ≤ 255 * (1 / 10 ^ 12) := mul_le_mul q2 t1 t0.le (by norm_num)
    linarith
  -- the second rounding
  have fin : ∀ {v : ℚ} {F : ℝ}, 0 ≤ v → |(v : ℝ)| ≤ 1042 / Q → |(Q : ℝ) * v - F| ≤ 0.0277317 →
      ∃ r, Fmt.b32.lift (v + 1 / 2) = .fin r ∧ |r| ≤ 2147483647 ∧ |(Q : ℝ) * (trunc r : ℝ) - F| ≤ Q / 2 + 0.028 := by
    intro v F h0 k7 k8
    have k9 : |((v + 1 / 2 : ℚ) : ℝ)| ≤ 1042 / Q + 1 / 2 := by
      push_cast
      refine (abs_add_le _ _).trans ?_
      rw [abs_of_pos (by norm_num : (0 : ℝ) < 1 / 2)]
      linarith
    have k10 : (1042 : ℝ) / Q ≤ 1042 := by
      rw [div_le_iff₀ (by linarith)]
      nlinarith
    obtain ⟨r, hr, hr'⟩ := lift_near k9 (by linarith)
    refine ⟨r, hr, ?_, ?_⟩
    · have : |(r : ℝ)| ≤ 2147483647 := by
        have := abs_add_le ((v + 1 / 2 : ℚ) : ℝ) (r - ((v + 1 / 2 : ℚ) : ℝ))
        rw [show ((v + 1 / 2 : ℚ) : ℝ) + (r - ((v + 1 / 2 : ℚ) : ℝ)) = r by ring] at this
        linarith
      exact_mod_cast this
    · have h := trunc_half h0 (r := r) (n := (1042 / Q + 1 / 2) / 16777216 + tiny) (by push_cast at hr'; exact hr') (by linarith)
      have e1 : (Q : ℝ) * (trunc r : ℝ) - F = Q * ((trunc r : ℝ) - v) + (Q * v - F) := by ring
      rw [e1]
      refine (abs_add_le _ _).trans ?_
      rw [abs_mul, abs_of_pos (by linarith : (0 : ℝ) < Q)]
      have : (Q : ℝ) * |(trunc r : ℝ) - v| ≤ Q * (1 / 2 + ((1042 / Q + 1 / 2) / 16777216 + tiny)) := by gcongr
      have e2 : (Q : ℝ) * (1 / 2 + ((1042 / Q + 1 / 2) / 16777216 + tiny)) = Q / 2 + (1042 + Q / 2) / 16777216 + Q * tiny := by
        field_simp
        ring
      have : (Q : ℝ) * tiny ≤ 255 * (1 / 10 ^ 12) := mul_le_mul q2 t1 t0.le (by norm_num)
      linarith
  unfold quantOne
  rw [em]
  dsimp only
  have half : flt (1 / 2) = .fin (1 / 2) := by
    unfold flt
    have h := rnd_exact Fmt.b32 (m := 1) (e := -1) (by decide) (by norm_num [Fmt.b32])
    rw [show ((1 : ℤ) : ℚ) * 2 ^ (-1 : ℤ) = 1 / 2 by norm_num] at h
    rw [lift32 (k := 0) (by norm_num) (by norm_num), h]
  rw [half]
  by_cases hneg : v < 0
  · obtain ⟨r, h1, h2, h3⟩ := fin (v := -v) (F := -F) (by linarith) (by push_cast; rw [abs_neg]; exact k7)
      (by push_cast; rw [show (Q : ℝ) * -v - -F = -(Q * v - F) by ring, abs_neg]; exact k8)
    have h4 : Fmt.b32.lift (v + -(1 / 2)) = .fin (-r) := by
      have hb : |-v + 1 / 2| ≤ 2 ^ 20 := by
        have h5 : |(v : ℝ)| ≤ 1042 := k7.trans (by rw [div_le_iff₀ (by linarith)]; nlinarith)
        have h6 : |v| ≤ 1042 := by exact_mod_cast h5
        refine (abs_add_le _ _).trans ?_
        rw [abs_neg]
        norm_num
        linarith
      rw [lift32 (k := 20) (by norm_num) hb] at h1
      rw [show v + -(1 / 2) = -(-v + 1 / 2) by ring, lift32 (k := 20) (by norm_num) (by rw [abs_neg]; exact hb), rnd_neg]
      injection h1 with h1
      rw [h1]
    refine ⟨trunc (-r), ?_, ?_⟩
    · rw [if_pos (by simp [Dbl.lt, hneg])]
      simp only [fsub, Dbl.sub, Dbl.neg, Dbl.add]
      rw [h4]
      exact toI32_fin (by rw [abs_neg]; exact h2)
    · rw [trunc_neg]
      push_cast
      rw [show (Q : ℝ) * -(trunc r : ℝ) - F = -(Q * (trunc r : ℝ) - -F) by ring, abs_neg]
      exact h3
  · obtain ⟨r, h1, h2, h3⟩ := fin (v := v) (F := F) (by linarith) k7 k8
    refine ⟨trunc r, ?_, h3⟩
    rw [if_neg (by simp [Dbl.lt, hneg])]
    simp only [fadd, Dbl.add]
    rw [h1]
    exact toI32_fin h2

/-- The block of quantised coefficients. -/
theorem quantDU_ok {n base stride : ℕ} {g f : ℕ → Dbl} {s : ℕ → ℕ → ℝ} {table : List UInt8} (hs : stride = 8 ∨ stride = 16)
    (hn : base + stride * 7 + 7 < n) (hsm : ∀ y < 8, ∀ x < 8, |s y x| ≤ 129)
    (hg : ∀ v < 8, ∀ u < 8, Apx (g (base + v * stride + u)) (aanScale v * aanScale u * Jpg.dct s v u) (175 * 129) (2120 * 129 / 16777216))
    (hq : ∀ k < 64, 1 ≤ (table.getD k 0).toNat)
    (hf : ∀ k < 64, RelNear (f (8 * (Jpg.zigzag.getD k (0, 0)).1 + (Jpg.zigzag.getD k (0, 0)).2))
        (1 / ((table.getD k 0).toNat * (aanScale (Jpg.zigzag.getD k (0, 0)).1 * aanScale (Jpg.zigzag.getD k (0, 0)).2))) 13) :
    ∃ c : List Int, quantDU (fnTab n g) base stride (fnTab 64 f) = .ok (c.map some) ∧ c.length = 64 ∧ ∀ k < 64,
      |((table.getD k 0).toNat : ℝ) * (c.getD k 0 : ℝ) - Jpg.dct s (Jpg.zigzag.getD k (0, 0)).1 (Jpg.zigzag.getD k (0, 0)).2| ≤
        (table.getD k 0).toNat / 2 + 0.028 := by
  have key : ∀ k, ∃ z : ℤ, k < 64 →
      quantOne (g (base + (Jpg.zigzag.getD k (0, 0)).1 * stride + (Jpg.zigzag.getD k (0, 0)).2))
        (f (8 * (Jpg.zigzag.getD k (0, 0)).1 + (Jpg.zigzag.getD k (0, 0)).2)) = .ok z ∧
      |((table.getD k 0).toNat : ℝ) * z - Jpg.dct s (Jpg.zigzag.getD k (0, 0)).1 (Jpg.zigzag.getD k (0, 0)).2| ≤
        (table.getD k 0).toNat / 2 + 0.028 := by
    intro k
    by_cases hk : k < 64
    swap
    · exact ⟨0, fun h => absurd h hk⟩
    obtain ⟨h1, h2, _⟩ := zigzag_inv k hk
    obtain ⟨p, e, _, h3⟩ := hg _ h1 _ h2
    have b1 := aanScale_bounds h1
    have b2 := aanScale_bounds h2
    have hF := dct_bound hsm (by norm_num) h1 h2
    obtain ⟨z, hz, hz'⟩ := quantOne_ok ⟨p, e, h3⟩ (hf k hk) (by linarith) (by norm_num) (by nlinarith) (hq k hk)
      (by have := (table.getD k 0).toNat_lt; omega)
    exact ⟨z, fun _ => ⟨hz, hz'⟩⟩
  choose z hz using key
  refine ⟨fnTab 64 z, ?_, fnTab_length _ _, ?_⟩
  · unfold quantDU
    refine Ok.eq ?_
    refine Ok.mono (Filled.loop (out := fnTab 64 z) (fun i k => jpgZigZag[i]? = some k) (Filled.start' _ (by rw [fnTab_length])) ?_) ?_
    · intro j hj V t hV
      obtain ⟨k, h1, h2, h3⟩ := zigzag_facts j hj
      have h4 := (hz k h2).1
      rw [h3] at h4
      dsimp only at h4
      rw [show 8 * (j / 8) + j % 8 = j by omega] at h4
      rw [fnTab_rd _ (by rcases hs with rfl | rfl <;> omega), ok_bind, fnTab_rd _ hj, ok_bind, h4, ok_bind, rdIn_ok h1, ok_bind]
      refine (hV.wr (fnTab_get z h2)).mono fun t' h' => h'.mono ?_
      rintro i _ (h | h)
      · exact Or.inl h
      · rw [h1, Option.some.injEq] at h
        exact Or.inr h.symm
    · intro t ht
      refine ht.done fun k hk => Or.inr ?_
      rw [fnTab_length] at hk
      obtain ⟨h1, h2, h3⟩ := zigzag_inv k hk
      exact ⟨_, by omega, h3⟩
  · intro k hk
    have : (fnTab 64 z).getD k 0 = z k := by
      rw [List.getD_eq_getElem?_getD, fnTab_get z hk]
      rfl
    rw [this]
    exact (hz k hk).2

end FlatCV
