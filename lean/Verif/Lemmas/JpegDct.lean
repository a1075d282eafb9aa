/-
`stbiw__jpg_DCT` computes the cosine transform of eight values, up to known factors and small errors.
-/
import Verif.Model.Jpeg
import Verif.Spec.Jpeg
import Verif.Lemmas.JpegTrig
import Verif.Core.Float
import Mathlib.Tactic.Positivity
import Mathlib.Algebra.BigOperators.Fin

namespace FlatCV
open Model

/-- Component `k`. -/
def Model.Oct.get {α : Type} (o : Oct α) (k : ℕ) : α :=
  match k with
  | 0 => o.d0
  | 1 => o.d1
  | 2 => o.d2
  | 3 => o.d3
  | 4 => o.d4
  | 5 => o.d5
  | 6 => o.d6
  | _ => o.d7

/-- The eight values of `f`. -/
def octOf {α : Type} (f : ℕ → α) : Oct α := ⟨f 0, f 1, f 2, f 3, f 4, f 5, f 6, f 7⟩

/-- The factor of component `k` in the output of `stbiw__jpg_DCT`. -/
noncomputable def aan (k : ℕ) : ℝ := if k = 0 then 1 else 2 * cs k

/-- The cosine transform of eight values with these factors. -/
noncomputable def line (f : ℕ → ℝ) (k : ℕ) : ℝ := aan k * ∑ i ∈ Finset.range 8, f i * cs ((2 * i + 1) * k)

/-! ### The exact computation -/

section
variable (f : ℕ → ℝ)

theorem line_eq {k : ℕ} (hk : k ≠ 0) : line f k = ∑ i ∈ Finset.range 8, f i * (cs (2 * (i + 1) * k) + cs (2 * i * k)) := by
  unfold line aan
  rw [if_neg hk, Finset.mul_sum]
  refine Finset.sum_congr rfl fun i _ => ?_
  have := cs_mul k (2 * i * k)
  rw [show k + 2 * i * k = (2 * i + 1) * k by ring, show 2 * k + 2 * i * k = 2 * (i + 1) * k by ring] at this
  rw [← this]
  ring

theorem cs_even :
    cs 0 = 1 ∧ cs 8 = 0 ∧ cs 10 = - cs 6 ∧ cs 12 = - cs 4 ∧ cs 14 = - cs 2 :=
  ⟨cs_zero, cs_eight, cs_sub rfl, cs_sub rfl, cs_sub rfl⟩

theorem line0 : line f 0 = ((f 0 + f 7) + (f 3 + f 4)) + ((f 1 + f 6) + (f 2 + f 5)) := by
  simp only [line, aan, Finset.sum_range_succ, Finset.sum_range_zero, Nat.mul_zero, cs_zero, if_true]
  ring

macro "line_tac" : tactic => `(tactic| (
  rw [line_eq _ (by norm_num)]
  simp only [Finset.sum_range_succ, Finset.sum_range_zero, Nat.reduceAdd, Nat.reduceMul]
  obtain ⟨e0, e8, e10, e12, e14⟩ := cs_even
  simp only [cs_red 16, cs_red 18, cs_red 20, cs_red 22, cs_red 24, cs_red 26, cs_red 28, cs_red 30, cs_red 32, cs_red 34, cs_red 36,
    cs_red 38, cs_red 40, cs_red 42, cs_red 44, cs_red 46, cs_red 48, cs_red 50, cs_red 52, cs_red 54, cs_red 56, cs_red 58, cs_red 60,
    cs_red 62, cs_red 64, cs_red 66, cs_red 68, cs_red 70, cs_red 72, cs_red 74, cs_red 76, cs_red 78, cs_red 80, cs_red 82, cs_red 84,
    cs_red 86, cs_red 88, cs_red 90, cs_red 92, cs_red 94, cs_red 96, cs_red 98, cs_red 100, cs_red 102, cs_red 104, cs_red 106, cs_red 108,
    cs_red 110, cs_red 112, Nat.reduceMod, Nat.reduceLT, if_true, if_false, e0, e8, e10, e12, e14]
  ring))

theorem line4 : line f 4 = ((f 0 + f 7) + (f 3 + f 4)) - ((f 1 + f 6) + (f 2 + f 5)) := by line_tac

theorem line2 : line f 2 = ((f 0 + f 7) - (f 3 + f 4)) + (((f 1 + f 6) - (f 2 + f 5)) + ((f 0 + f 7) - (f 3 + f 4))) * cs 4 := by line_tac

theorem line6 : line f 6 = ((f 0 + f 7) - (f 3 + f 4)) - (((f 1 + f 6) - (f 2 + f 5)) + ((f 0 + f 7) - (f 3 + f 4))) * cs 4 := by line_tac

theorem line1 : line f 1 = ((f 0 - f 7) + ((f 2 - f 5) + (f 1 - f 6)) * cs 4) + (((f 1 - f 6) + (f 0 - f 7)) * (cs 2 + cs 6) +
    (((f 3 - f 4) + (f 2 - f 5)) - ((f 1 - f 6) + (f 0 - f 7))) * cs 6) := by line_tac

theorem line7 : line f 7 = ((f 0 - f 7) + ((f 2 - f 5) + (f 1 - f 6)) * cs 4) - (((f 1 - f 6) + (f 0 - f 7)) * (cs 2 + cs 6) +
    (((f 3 - f 4) + (f 2 - f 5)) - ((f 1 - f 6) + (f 0 - f 7))) * cs 6) := by line_tac

theorem line5 : line f 5 = ((f 0 - f 7) - ((f 2 - f 5) + (f 1 - f 6)) * cs 4) + (((f 3 - f 4) + (f 2 - f 5)) * (cs 2 - cs 6) +
    (((f 3 - f 4) + (f 2 - f 5)) - ((f 1 - f 6) + (f 0 - f 7))) * cs 6) := by line_tac

theorem line3 : line f 3 = ((f 0 - f 7) - ((f 2 - f 5) + (f 1 - f 6)) * cs 4) - (((f 3 - f 4) + (f 2 - f 5)) * (cs 2 - cs 6) +
    (((f 3 - f 4) + (f 2 - f 5)) - ((f 1 - f 6) + (f 0 - f 7))) * cs 6) := by line_tac

end

/-! ### Errors -/

/-- The float `d` is `x` up to the error `e`; `x` is at most `m`. -/
def Apx (d : Dbl) (x m e : ℝ) : Prop := ∃ q : ℚ, d = .fin q ∧ |x| ≤ m ∧ |(q : ℝ) - x| ≤ e

/-- The error of underflow. -/
noncomputable def tiny : ℝ := 1 / 2 ^ 150

theorem tiny_pos : 0 < tiny := by unfold tiny; positivity

theorem tiny_le : tiny ≤ 1 / 10 ^ 12 := by unfold tiny; norm_num

theorem lift_near {z : ℚ} {B : ℝ} (h : |(z : ℝ)| ≤ B) (hB : B ≤ 10 ^ 30) :
    ∃ q : ℚ, Fmt.b32.lift z = .fin q ∧ |(q : ℝ) - z| ≤ B / 16777216 + tiny := by
  have hz : |z| ≤ 2 ^ 100 := by
    have : |(z : ℝ)| ≤ 2 ^ 100 := h.trans (hB.trans (by norm_num))
    exact_mod_cast this
  refine ⟨_, lift32 (by norm_num) hz, ?_⟩
  have h1 := (Rat.cast_le (K := ℝ)).2 (rnd32_err z)
  push_cast at h1
  unfold tiny
  have h2 : |(z : ℝ)| / 2 ^ 24 ≤ B / 16777216 := by norm_num; linarith
  linarith

theorem Apx.mono {d : Dbl} {x m e m' e' : ℝ} (h : Apx d x m e) (hm : m ≤ m') (he : e ≤ e') : Apx d x m' e' := by
  obtain ⟨q, h1, h2, h3⟩ := h
  exact ⟨q, h1, h2.trans hm, h3.trans he⟩

theorem Apx.abs_le {q : ℚ} {x m e : ℝ} (h2 : |x| ≤ m) (h3 : |(q : ℝ) - x| ≤ e) : |(q : ℝ)| ≤ m + e := by
  have := abs_add_le x ((q : ℝ) - x)
  rw [show x + ((q : ℝ) - x) = q by ring] at this
  linarith

theorem Apx.add {a b : Dbl} {x y m e m' e' M E : ℝ} (ha : Apx a x m e) (hb : Apx b y m' e') (hM : m + m' ≤ M)
    (hE : e + e' + (m + m' + e + e') / 16777216 + tiny ≤ E) (hB : m + m' + e + e' ≤ 10 ^ 30) : Apx (fadd a b) (x + y) M E := by
  obtain ⟨p, rfl, h1, h2⟩ := ha
  obtain ⟨q, rfl, h3, h4⟩ := hb
  have hs : |((p + q : ℚ) : ℝ)| ≤ m + m' + e + e' := by
    push_cast
    have := Apx.abs_le h1 h2
    have := Apx.abs_le h3 h4
    exact (abs_add_le _ _).trans (by linarith)
  obtain ⟨r, h5, h6⟩ := lift_near hs hB
  refine ⟨r, h5, (abs_add_le _ _).trans (by linarith), ?_⟩
  rw [show (r : ℝ) - (x + y) = (r - ((p + q : ℚ) : ℝ)) + ((p - x) + (q - y)) by push_cast; ring]
  exact (abs_add_le _ _).trans (by have := abs_add_le ((p : ℝ) - x) (q - y); linarith)

theorem Apx.sub {a b : Dbl} {x y m e m' e' M E : ℝ} (ha : Apx a x m e) (hb : Apx b y m' e') (hM : m + m' ≤ M)
    (hE : e + e' + (m + m' + e + e') / 16777216 + tiny ≤ E) (hB : m + m' + e + e' ≤ 10 ^ 30) : Apx (fsub a b) (x - y) M E := by
  obtain ⟨p, rfl, h1, h2⟩ := ha
  obtain ⟨q, rfl, h3, h4⟩ := hb
  have hs : |((p - q : ℚ) : ℝ)| ≤ m + m' + e + e' := by
    push_cast
    have := Apx.abs_le h1 h2
    have := Apx.abs_le h3 h4
    exact (abs_sub _ _).trans (by linarith)
  obtain ⟨r, h5, h6⟩ := lift_near hs hB
  refine ⟨r, ?_, (abs_sub _ _).trans (by linarith), ?_⟩
  · rw [← h5]
    simp only [fsub, Dbl.sub, Dbl.neg, Dbl.add, sub_eq_add_neg]
  · rw [show (r : ℝ) - (x - y) = (r - ((p - q : ℚ) : ℝ)) + ((p - x) - (q - y)) by push_cast; ring]
    exact (abs_add_le _ _).trans (by have := abs_sub ((p : ℝ) - x) (q - y); linarith)

theorem Apx.mul {a b : Dbl} {x y m e m' e' M E : ℝ} (ha : Apx a x m e) (hb : Apx b y m' e') (hM : m * m' ≤ M)
    (hE : e * (m' + e') + m * e' + (m + e) * (m' + e') / 16777216 + tiny ≤ E) (hB : (m + e) * (m' + e') ≤ 10 ^ 30) :
    Apx (fmul a b) (x * y) M E := by
  obtain ⟨p, rfl, h1, h2⟩ := ha
  obtain ⟨q, rfl, h3, h4⟩ := hb
  have hp := Apx.abs_le h1 h2
  have hq := Apx.abs_le h3 h4
  have p0 := abs_nonneg (p : ℝ)
  have q0 := abs_nonneg (q : ℝ)
  have x0 := abs_nonneg x
  have y0 := abs_nonneg y
  have hs : |((p * q : ℚ) : ℝ)| ≤ (m + e) * (m' + e') := by
    push_cast
    rw [abs_mul]
    exact mul_le_mul hp hq q0 (by linarith)
  obtain ⟨r, h5, h6⟩ := lift_near hs hB
  refine ⟨r, h5, ?_, ?_⟩
  · rw [abs_mul]
    exact (mul_le_mul h1 h3 y0 (by linarith)).trans hM
  · have k1 : |((p : ℝ) - x) * q| ≤ e * (m' + e') := by
      rw [abs_mul]
      exact mul_le_mul h2 hq q0 (by linarith [abs_nonneg ((p : ℝ) - x)])
    have k2 : |x * ((q : ℝ) - y)| ≤ m * e' := by
      rw [abs_mul]
      exact mul_le_mul h1 h4 (abs_nonneg _) (by linarith)
    rw [show (r : ℝ) - x * y = (r - ((p * q : ℚ) : ℝ)) + (((p : ℝ) - x) * q + x * (q - y)) by push_cast; ring]
    exact (abs_add_le _ _).trans (by have := abs_add_le (((p : ℝ) - x) * q) (x * (q - y)); linarith)

/-- A constant of the program, given with nine digits. -/
theorem Apx.const {l : ℚ} {x m e : ℝ} (hx : |x| ≤ m) (h : |(l : ℝ) - x| + (m + |(l : ℝ) - x|) / 16777216 + tiny ≤ e) (hm : m ≤ 10 ^ 6)
    (he : e ≤ 10 ^ 6) : Apx (flt l) x m e := by
  have h0 : |(l : ℝ)| ≤ m + |(l : ℝ) - x| := Apx.abs_le hx le_rfl
  have m0 : 0 ≤ m := (abs_nonneg x).trans hx
  have h1 := tiny_pos
  have h2 := abs_nonneg ((l : ℝ) - x)
  obtain ⟨q, h3, h4⟩ := lift_near h0 (by
    have : (0 : ℝ) ≤ (m + |(l : ℝ) - x|) / 16777216 := by positivity
    have : (10 : ℝ) ^ 6 + 10 ^ 6 ≤ 10 ^ 30 := by norm_num
    linarith)
  refine ⟨q, h3, hx, ?_⟩
  rw [show (q : ℝ) - x = (q - l) + (l - x) by ring]
  exact (abs_add_le _ _).trans (by linarith)

theorem near_c4 : Apx (flt (707106781 / 1000000000)) (cs 4) 0.7072 (0.8 / 16777216) := by
  have h := cs4
  have h1 : |((707106781 / 1000000000 : ℚ) : ℝ) - cs 4| ≤ 1 / 10 ^ 9 := by push_cast; rw [abs_le]; constructor <;> linarith
  have := tiny_le
  refine Apx.const (abs_le.2 ⟨by linarith, by linarith⟩) ?_ (by norm_num) (by norm_num)
  linarith

theorem near_c6 : Apx (flt (382683433 / 1000000000)) (cs 6) 0.3827 (0.5 / 16777216) := by
  have h := cs6
  have h1 : |((382683433 / 1000000000 : ℚ) : ℝ) - cs 6| ≤ 2 / 10 ^ 9 := by push_cast; rw [abs_le]; constructor <;> linarith
  have := tiny_le
  refine Apx.const (abs_le.2 ⟨by linarith, by linarith⟩) ?_ (by norm_num) (by norm_num)
  linarith

theorem near_c26 : Apx (flt (541196100 / 1000000000)) (cs 2 - cs 6) 0.5412 (0.65 / 16777216) := by
  have h := cs6
  have h' := cs2
  have h1 : |((541196100 / 1000000000 : ℚ) : ℝ) - (cs 2 - cs 6)| ≤ 4 / 10 ^ 9 := by push_cast; rw [abs_le]; constructor <;> linarith
  have := tiny_le
  refine Apx.const (abs_le.2 ⟨by linarith, by linarith⟩) ?_ (by norm_num) (by norm_num)
  linarith

theorem near_c62 : Apx (flt (1306562965 / 1000000000)) (cs 2 + cs 6) 1.3066 (1.4 / 16777216) := by
  have h := cs6
  have h' := cs2
  have h1 : |((1306562965 / 1000000000 : ℚ) : ℝ) - (cs 2 + cs 6)| ≤ 4 / 10 ^ 9 := by push_cast; rw [abs_le]; constructor <;> linarith
  have := tiny_le
  refine Apx.const (abs_le.2 ⟨by linarith, by linarith⟩) ?_ (by norm_num) (by norm_num)
  linarith

/-- `stbiw__jpg_DCT`: what it computes and with what error. -/
theorem dct_near {f : ℕ → Dbl} {x : ℕ → ℝ} {m e : ℝ} (hf : ∀ i < 8, Apx (f i) (x i) m e) (hm : 1 ≤ m) (he : 0 ≤ e) (hm' : m ≤ 10 ^ 6)
    (he' : e ≤ 10 ^ 6) {k : ℕ} (hk : k < 8) :
    Apx ((stbiw_jpg_DCT (octOf f)).get k) (line x k) (13.2 * m) (13.3 * e + 80 * m / 16777216) := by
  have t0 := tiny_pos
  have t1 := tiny_le
  have f0 := hf 0 (by norm_num)
  have f1 := hf 1 (by norm_num)
  have f2 := hf 2 (by norm_num)
  have f3 := hf 3 (by norm_num)
  have f4 := hf 4 (by norm_num)
  have f5 := hf 5 (by norm_num)
  have f6 := hf 6 (by norm_num)
  have f7 := hf 7 (by norm_num)
  have s : ∀ i j, i < 8 → j < 8 → Apx (fadd (f i) (f j)) (x i + x j) (2 * m) (2.001 * e + 2.001 * m / 16777216) := fun i j hi hj =>
    Apx.add (hf i hi) (hf j hj) (by linarith) (by linarith) (by linarith)
  have d : ∀ i j, i < 8 → j < 8 → Apx (fsub (f i) (f j)) (x i - x j) (2 * m) (2.001 * e + 2.001 * m / 16777216) := fun i j hi hj =>
    Apx.sub (hf i hi) (hf j hj) (by linarith) (by linarith) (by linarith)
  have a10 : Apx _ _ (4 * m) (4.01 * e + 8.02 * m / 16777216) :=
    Apx.add (s 0 7 (by norm_num) (by norm_num)) (s 3 4 (by norm_num) (by norm_num)) (by linarith) (by linarith) (by linarith)
  have a13 : Apx _ _ (4 * m) (4.01 * e + 8.02 * m / 16777216) :=
    Apx.sub (s 0 7 (by norm_num) (by norm_num)) (s 3 4 (by norm_num) (by norm_num)) (by linarith) (by linarith) (by linarith)
  have a11 : Apx _ _ (4 * m) (4.01 * e + 8.02 * m / 16777216) :=
    Apx.add (s 1 6 (by norm_num) (by norm_num)) (s 2 5 (by norm_num) (by norm_num)) (by linarith) (by linarith) (by linarith)
  have a12 : Apx _ _ (4 * m) (4.01 * e + 8.02 * m / 16777216) :=
    Apx.sub (s 1 6 (by norm_num) (by norm_num)) (s 2 5 (by norm_num) (by norm_num)) (by linarith) (by linarith) (by linarith)
  have z1 : Apx _ _ (5.66 * m) (5.7 * e + 29.3 * m / 16777216) :=
    Apx.mul (Apx.add a12 a13 (M := 8 * m) (E := 8.03 * e + 24.2 * m / 16777216) (by linarith) (by linarith) (by linarith)) near_c4
      (by linarith) (by linarith) (by linarith)
  have b10 : Apx _ _ (4 * m) (4.01 * e + 8.02 * m / 16777216) :=
    Apx.add (d 3 4 (by norm_num) (by norm_num)) (d 2 5 (by norm_num) (by norm_num)) (by linarith) (by linarith) (by linarith)
  have b11 : Apx _ _ (4 * m) (4.01 * e + 8.02 * m / 16777216) :=
    Apx.add (d 2 5 (by norm_num) (by norm_num)) (d 1 6 (by norm_num) (by norm_num)) (by linarith) (by linarith) (by linarith)
  have b12 : Apx _ _ (4 * m) (4.01 * e + 8.02 * m / 16777216) :=
    Apx.add (d 1 6 (by norm_num) (by norm_num)) (d 0 7 (by norm_num) (by norm_num)) (by linarith) (by linarith) (by linarith)
  have z5 : Apx _ _ (3.07 * m) (3.09 * e + 17 * m / 16777216) :=
    Apx.mul (Apx.sub b10 b12 (M := 8 * m) (E := 8.03 * e + 24.2 * m / 16777216) (by linarith) (by linarith) (by linarith)) near_c6
      (by linarith) (by linarith) (by linarith)
  have z2 : Apx _ _ (5.24 * m) (5.31 * e + 32 * m / 16777216) :=
    Apx.add (Apx.mul b10 near_c26 (M := 2.17 * m) (E := 2.18 * e + 9.2 * m / 16777216) (by linarith) (by linarith) (by linarith)) z5
      (by linarith) (by linarith) (by linarith)
  have z4 : Apx _ _ (8.3 * m) (8.36 * e + 48 * m / 16777216) :=
    Apx.add (Apx.mul b12 near_c62 (M := 5.23 * m) (E := 5.25 * e + 21.5 * m / 16777216) (by linarith) (by linarith) (by linarith)) z5
      (by linarith) (by linarith) (by linarith)
  have z3 : Apx _ _ (2.83 * m) (2.85 * e + 11.8 * m / 16777216) :=
    Apx.mul b11 near_c4 (by linarith) (by linarith) (by linarith)
  have z11 : Apx _ _ (4.83 * m) (4.87 * e + 18.8 * m / 16777216) :=
    Apx.add (d 0 7 (by norm_num) (by norm_num)) z3 (by linarith) (by linarith) (by linarith)
  have z13 : Apx _ _ (4.83 * m) (4.87 * e + 18.8 * m / 16777216) :=
    Apx.sub (d 0 7 (by norm_num) (by norm_num)) z3 (by linarith) (by linarith) (by linarith)
  match k, hk with
  | 0, _ => rw [line0]; exact Apx.add a10 a11 (by linarith) (by linarith) (by linarith)
  | 1, _ => rw [line1]; exact Apx.add z11 z4 (by linarith) (by linarith) (by linarith)
  | 2, _ => rw [line2]; exact Apx.add a13 z1 (by linarith) (by linarith) (by linarith)
  | 3, _ => rw [line3]; exact Apx.sub z13 z2 (by linarith) (by linarith) (by linarith)
  | 4, _ => rw [line4]; exact Apx.sub a10 a11 (by linarith) (by linarith) (by linarith)
  | 5, _ => rw [line5]; exact Apx.add z13 z2 (by linarith) (by linarith) (by linarith)
  | 6, _ => rw [line6]; exact Apx.sub a13 z1 (by linarith) (by linarith) (by linarith)
  | 7, _ => rw [line7]; exact Apx.sub z11 z4 (by linarith) (by linarith) (by linarith)

end FlatCV
