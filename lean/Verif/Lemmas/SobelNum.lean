/-
Numerics of edge detection: computed roots of integers and the normalised byte.
-/
import Verif.Model.Sobel
import Verif.Spec.Sobel
import Verif.Lemmas.ResizeBilin
import Verif.Lemmas.Draw

namespace FlatCV
open Model

/-- The computed root of an integer. -/
def rootOf (s : ℤ) : ℚ := Fmt.b64.rnd (sqrtMid s)

theorem rootOf_mono {s t : ℤ} (h : s ≤ t) (hs : 0 ≤ s) : rootOf s ≤ rootOf t :=
  f64sqrt_mono (by exact_mod_cast h) (by exact_mod_cast hs)

theorem rootOf_nonneg (s : ℤ) : 0 ≤ rootOf s := rnd_nonneg _ (sqrtMid_nonneg _)

theorem rep64_scaled {m : ℤ} (h : |m| ≤ 9007199254740992) : Fmt.b64.Rep ((m : ℚ) / 2 ^ 40) := by
  refine ⟨⟨m, -40, by decide, by exact_mod_cast h, ?_⟩, ?_⟩
  · rw [zpow_neg, div_eq_mul_inv]
    norm_cast
  · have h1 : |(m : ℚ)| ≤ 9007199254740992 := by exact_mod_cast h
    rw [abs_div, abs_of_pos (by positivity : (0 : ℚ) < 2 ^ 40)]
    refine lt_max64 ?_
    rw [div_le_iff₀ (by positivity)]
    norm_num
    linarith

/-- The computed root is close to the real root. -/
theorem rootOf_near {s : ℤ} (h0 : 0 ≤ s) (h1 : s ≤ 2080800) :
    |(rootOf s : ℝ) - Real.sqrt s| ≤ 1 / 2 ^ 40 := by
  obtain ⟨n, rfl⟩ := Int.eq_ofNat_of_zero_le h0
  have hn : n ≤ 2080800 := by omega
  obtain ⟨R, a1, a2⟩ : ∃ R : ℕ, R * R ≤ n * 2 ^ 80 ∧ n * 2 ^ 80 < (R + 1) * (R + 1) :=
    ⟨Nat.sqrt (n * 2 ^ 80), Nat.sqrt_le _, Nat.lt_succ_sqrt _⟩
  have a3 : R < 1500 * 2 ^ 40 := by
    by_contra hc
    have hc := Nat.not_lt.1 hc
    have := Nat.mul_le_mul hc hc
    omega
  have q1 : (R : ℚ) * R ≤ n * 2 ^ 80 := by exact_mod_cast a1
  have q2 : (n : ℚ) * 2 ^ 80 ≤ (R + 1) * (R + 1) := by exact_mod_cast a2.le
  have r1 : (R : ℝ) * R ≤ n * 2 ^ 80 := by exact_mod_cast a1
  have r2 : (n : ℝ) * 2 ^ 80 ≤ (R + 1) * (R + 1) := by exact_mod_cast a2.le
  have b1 : (R : ℚ) / 2 ^ 40 ≤ rootOf n := by
    have := le_f64sqrt (r := ((R : ℤ) : ℚ) / 2 ^ 40) (s := ((n : ℤ) : ℚ))
      (rep64_scaled (by rw [abs_of_nonneg (by omega)]; omega)) (by positivity) (by
        push_cast
        rw [div_mul_div_comm, div_le_iff₀ (by positivity)]
        linarith)
    push_cast at this
    exact this
  have b2 : rootOf n ≤ ((R : ℚ) + 1) / 2 ^ 40 := by
    have := f64sqrt_le (r := ((R + 1 : ℤ) : ℚ) / 2 ^ 40) (s := ((n : ℤ) : ℚ))
      (rep64_scaled (by rw [abs_of_nonneg (by omega)]; omega)) (by positivity) (by positivity) (by
        push_cast
        rw [div_mul_div_comm, le_div_iff₀ (by positivity)]
        linarith)
    push_cast at this
    exact this
  have c1 : (R : ℝ) / 2 ^ 40 ≤ rootOf n := by
    have := (Rat.cast_le (K := ℝ)).2 b1
    push_cast at this
    exact this
  have c2 : (rootOf n : ℝ) ≤ ((R : ℝ) + 1) / 2 ^ 40 := by
    have := (Rat.cast_le (K := ℝ)).2 b2
    push_cast at this
    exact this
  have d1 : (R : ℝ) / 2 ^ 40 ≤ Real.sqrt n := by
    refine Real.le_sqrt_of_sq_le ?_
    rw [div_pow, div_le_iff₀ (by positivity), sq]
    linarith
  have d2 : Real.sqrt n ≤ ((R : ℝ) + 1) / 2 ^ 40 := by
    rw [Real.sqrt_le_left (by positivity), div_pow, le_div_iff₀ (by positivity), sq]
    linarith
  have e : ((R : ℝ) + 1) / 2 ^ 40 = R / 2 ^ 40 + 1 / 2 ^ 40 := by ring
  push_cast
  rw [abs_le]
  constructor <;> linarith

/-- Real roots of distinct integers are well separated. -/
theorem sqrt_gap {s t : ℤ} (h0 : 0 ≤ s) (h : s < t) (h1 : t ≤ 2080800) :
    1 / 3000 ≤ Real.sqrt t - Real.sqrt s := by
  have s0 : (0 : ℝ) ≤ s := by exact_mod_cast h0
  have t0 : (0 : ℝ) ≤ t := by exact_mod_cast (by omega : (0 : ℤ) ≤ t)
  have t1 : (s : ℝ) + 1 ≤ t := by exact_mod_cast h
  have t2 : (t : ℝ) ≤ 2080800 := by exact_mod_cast h1
  have e1 := Real.sq_sqrt s0
  have e2 := Real.sq_sqrt t0
  have p1 := Real.sqrt_nonneg (s : ℝ)
  have p2 : Real.sqrt t ≤ 1500 := by
    rw [Real.sqrt_le_left (by norm_num)]
    linarith
  have p3 : Real.sqrt s < Real.sqrt t := Real.sqrt_lt_sqrt s0 (by linarith)
  nlinarith

theorem rootOf_gap {s t : ℤ} (h0 : 0 ≤ s) (h : s < t) (h1 : t ≤ 2080800) :
    1 / 4000 ≤ rootOf t - rootOf s := by
  have a := abs_le.1 (rootOf_near h0 (by omega))
  have b := abs_le.1 (rootOf_near (by omega : 0 ≤ t) h1)
  have c := sqrt_gap h0 h h1
  have : ((1 / 4000 : ℚ) : ℝ) ≤ ((rootOf t - rootOf s : ℚ) : ℝ) := by
    push_cast
    norm_num at a b ⊢
    linarith [a.1, a.2, b.1, b.2]
  exact_mod_cast this

theorem rootOf_le {s : ℤ} (h1 : s ≤ 2080800) (h0 : 0 ≤ s) : rootOf s ≤ 1500 := by
  have := f64sqrt_le (r := ((1500 : ℤ) : ℚ)) (s := (s : ℚ)) (rep64_int (by norm_num))
    (by norm_num) (by exact_mod_cast h0) (by
      have : (s : ℚ) ≤ 2080800 := by exact_mod_cast h1
      push_cast
      linarith)
  push_cast at this
  exact this

theorem sobelMag_ok {gx gy : ℤ} (h1 : |gx| ≤ 1020) (h2 : |gy| ≤ 1020) :
    sobelMag gx gy = .ok (rootOf (gx * gx + gy * gy)) := by
  have b1 : gx * gx ≤ 1040400 := by nlinarith [abs_le.1 h1]
  have b2 : gy * gy ≤ 1040400 := by nlinarith [abs_le.1 h2]
  have a1 := mul_self_nonneg gx
  have a2 := mul_self_nonneg gy
  have key : ∀ z : ℤ, 0 ≤ z → z ≤ 2080800 → f64 (z : ℚ) = .ok (z : ℚ) := by
    intro z z0 z1
    have q1 : (z : ℚ) ≤ 2080800 := by exact_mod_cast z1
    have q0 : (0 : ℚ) ≤ z := by exact_mod_cast z0
    rw [f64_ok (by rw [abs_of_nonneg q0]; exact q1.trans (by norm_num)),
      rnd64_int (by rw [abs_of_nonneg z0]; omega)]
  unfold sobelMag
  have e1 := key (gx * gx) a1 (by omega)
  have e2 := key (gy * gy) a2 (by omega)
  have e3 := key (gx * gx + gy * gy) (by omega) (by omega)
  push_cast at e1 e2 e3
  rw [e1, ok_bind, e2, ok_bind, e3, ok_bind, f64sqrt_ok (by exact_mod_cast (by omega : 0 ≤ gx * gx + gy * gy))]
  unfold rootOf
  push_cast
  rfl

/-- The value cut to the output byte. -/
def levelOf (mn range m : ℚ) : ℚ :=
  Fmt.b64.rnd (Fmt.b64.rnd (Fmt.b64.rnd (m - mn) / range) * 255)

theorem levelOf_nonneg {mn range m : ℚ} (h1 : mn ≤ m) (hr : 0 < range) : 0 ≤ levelOf mn range m := by
  refine rnd_nonneg _ (mul_nonneg (rnd_nonneg _ (div_nonneg (rnd_nonneg _ (by linarith)) hr.le)) (by norm_num))

theorem levelOf_mono {mn range m m' : ℚ} (h : m ≤ m') (hr : 0 < range) :
    levelOf mn range m ≤ levelOf mn range m' := by
  refine rnd_mono _ (mul_le_mul_of_nonneg_right (rnd_mono _ ?_) (by norm_num))
  exact div_le_div_of_nonneg_right (rnd_mono _ (by linarith)) hr.le

theorem levelOf_min (mn range : ℚ) : levelOf mn range mn = 0 := by
  simp [levelOf, rnd_zero]

theorem levelOf_max {mn mx : ℚ} (hr : 0 < Fmt.b64.rnd (mx - mn)) :
    levelOf mn (Fmt.b64.rnd (mx - mn)) mx = 255 := by
  have := rnd64_int (m := 255) (by norm_num)
  push_cast at this
  rw [levelOf, div_self hr.ne', rnd_one, one_mul, this]

theorem sobelByte_ok {mn range m : ℚ} (h1 : mn ≤ m) (h2 : m ≤ mn + 2000) (hr : 0 < range)
    (hr2 : Fmt.b64.rnd (m - mn) ≤ range) :
    sobelByte mn range m = .ok (UInt8.ofNat ⌊levelOf mn range m⌋.toNat) ∧
      ⌊levelOf mn range m⌋.toNat ≤ 255 := by
  have t0 : 0 ≤ Fmt.b64.rnd (m - mn) := rnd_nonneg _ (by linarith)
  have q1 : Fmt.b64.rnd (m - mn) / range ≤ 1 := (div_le_one hr).2 hr2
  have q0 : 0 ≤ Fmt.b64.rnd (m - mn) / range := div_nonneg t0 hr.le
  have v1 : Fmt.b64.rnd (Fmt.b64.rnd (m - mn) / range) ≤ 1 := rnd_le _ q1 rnd_one
  have v0 : 0 ≤ Fmt.b64.rnd (Fmt.b64.rnd (m - mn) / range) := rnd_nonneg _ q0
  have e255 := rnd64_int (m := 255) (by norm_num)
  push_cast at e255
  have l1 : levelOf mn range m ≤ 255 := rnd_le _ (by linarith) e255
  have l0 : 0 ≤ levelOf mn range m := levelOf_nonneg h1 hr
  have f0 : 0 ≤ ⌊levelOf mn range m⌋ := Int.floor_nonneg.2 l0
  have f1 : ⌊levelOf mn range m⌋ ≤ 255 := by
    have : (⌊levelOf mn range m⌋ : ℚ) ≤ 255 := (Int.floor_le _).trans l1
    exact_mod_cast this
  refine ⟨?_, by omega⟩
  unfold sobelByte
  rw [f64_ok (by rw [abs_of_nonneg (by linarith)]; linarith [show (2000 : ℚ) ≤ 10 ^ 60 by norm_num]),
    ok_bind, f64div_ok hr.ne' (by rw [abs_of_nonneg q0]; linarith [show (1 : ℚ) ≤ 10 ^ 60 by norm_num]),
    ok_bind, f64_ok (by
      rw [abs_of_nonneg (by positivity)]
      linarith [show (255 : ℚ) ≤ 10 ^ 60 by norm_num]), ok_bind]
  have e : castI32 (levelOf mn range m) = .ok ⌊levelOf mn range m⌋ := by
    rw [castI32_ok (by rw [abs_of_nonneg l0]; linarith), trunc_nonneg l0]
  unfold levelOf at e f0 f1 ⊢
  rw [e, ok_bind]
  simp only [not_lt.2 f0, if_false, gt_iff_lt, not_lt.2 f1]
  congr 1
  unfold u8OfInt
  rw [Int.emod_eq_of_lt f0 (by omega)]

/-- The byte level is the exact rescaling up to rounding. -/
theorem levelOf_near {lo hi s : ℤ} (h0 : 0 ≤ lo) (h1 : lo ≤ s) (h2 : s ≤ hi) (hlt : lo < hi)
    (hb : hi ≤ 2080800) :
    |(levelOf (rootOf lo) (Fmt.b64.rnd (rootOf hi - rootOf lo)) (rootOf s) : ℝ) -
      Spec.edgeLevel lo hi s| ≤ 1 / 10000 := by
  have n1 := abs_le.1 (rootOf_near h0 (by omega : lo ≤ 2080800))
  have n2 := abs_le.1 (rootOf_near (by omega : 0 ≤ hi) hb)
  have n3 := abs_le.1 (rootOf_near (by omega : 0 ≤ s) (by omega))
  have g := sqrt_gap h0 hlt hb
  have gq := rootOf_gap h0 hlt hb
  have m1 := rootOf_mono h1 h0
  have m2 := rootOf_mono h2 (by omega)
  have u := rootOf_le hb (by omega)
  have l := rootOf_nonneg lo
  have s1 : Real.sqrt lo ≤ Real.sqrt s := Real.sqrt_le_sqrt (by exact_mod_cast h1)
  have s2 : Real.sqrt s ≤ Real.sqrt hi := Real.sqrt_le_sqrt (by exact_mod_cast h2)
  generalize rootOf lo = a at *
  generalize rootOf hi = b at *
  generalize rootOf s = m at *
  unfold Spec.edgeLevel
  generalize Real.sqrt (lo : ℝ) = A at *
  generalize Real.sqrt (hi : ℝ) = B at *
  generalize Real.sqrt (s : ℝ) = M at *
  have t1 := rnd64_err_le (x := m - a) (B := 2048) (by rw [abs_of_nonneg (by linarith)]; linarith) (by norm_num)
  have r1 := rnd64_err_le (x := b - a) (B := 2048) (by rw [abs_of_nonneg (by linarith)]; linarith) (by norm_num)
  have tr : Fmt.b64.rnd (m - a) ≤ Fmt.b64.rnd (b - a) := rnd_mono _ (by linarith)
  have t0 : 0 ≤ Fmt.b64.rnd (m - a) := rnd_nonneg _ (by linarith)
  unfold levelOf
  generalize Fmt.b64.rnd (m - a) = t at *
  generalize Fmt.b64.rnd (b - a) = r at *
  have t1 := abs_le.1 t1
  have r1 := abs_le.1 r1
  norm_num at t1 r1
  have r0 : 1 / 5000 ≤ r := by linarith [r1.1]
  have q1 : t / r ≤ 1 := (div_le_one (by linarith)).2 tr
  have q0 : 0 ≤ t / r := div_nonneg t0 (by linarith)
  have w1 := abs_le.1 (rnd64_err_le (x := t / r) (B := 1) (by rw [abs_of_nonneg q0]; exact q1) (le_refl _))
  have y1 : Fmt.b64.rnd (t / r) ≤ 1 := rnd_le _ q1 rnd_one
  have y0 : 0 ≤ Fmt.b64.rnd (t / r) := rnd_nonneg _ q0
  generalize hq : Fmt.b64.rnd (t / r) = q at *
  have z1 := abs_le.1 (rnd64_err_le (x := q * 255) (B := 255)
    (by rw [abs_of_nonneg (by linarith)]; linarith) (by norm_num))
  generalize Fmt.b64.rnd (q * 255) = v at *
  norm_num at w1 z1 n1 n2 n3
  -- in the reals
  have T1 : ((t : ℚ) : ℝ) ≤ M - A + 1 / 10 ^ 11 ∧ M - A - 1 / 10 ^ 11 ≤ (t : ℝ) := by
    have c1 : ((t : ℚ) : ℝ) ≤ ((m - a + 1 / 10 ^ 12 : ℚ) : ℝ) := Rat.cast_le.2 (by norm_num; linarith [t1.2])
    have c2 : ((m - a - 1 / 10 ^ 12 : ℚ) : ℝ) ≤ (t : ℝ) := Rat.cast_le.2 (by norm_num; linarith [t1.1])
    push_cast at c1 c2
    norm_num at c1 c2 ⊢
    constructor <;> linarith [n1.1, n1.2, n3.1, n3.2]
  have R1 : ((r : ℚ) : ℝ) ≤ B - A + 1 / 10 ^ 11 ∧ B - A - 1 / 10 ^ 11 ≤ (r : ℝ) := by
    have c1 : ((r : ℚ) : ℝ) ≤ ((b - a + 1 / 10 ^ 12 : ℚ) : ℝ) := Rat.cast_le.2 (by norm_num; linarith [r1.2])
    have c2 : ((b - a - 1 / 10 ^ 12 : ℚ) : ℝ) ≤ (r : ℝ) := Rat.cast_le.2 (by norm_num; linarith [r1.1])
    push_cast at c1 c2
    norm_num at c1 c2 ⊢
    constructor <;> linarith [n1.1, n1.2, n2.1, n2.2]
  have V1 : ((v : ℚ) : ℝ) ≤ 255 * (t / r) + 1 / 10 ^ 10 ∧ 255 * (t / r) - 1 / 10 ^ 10 ≤ (v : ℝ) := by
    have c1 : ((v : ℚ) : ℝ) ≤ ((255 * (t / r) + 1 / 10 ^ 10 : ℚ) : ℝ) :=
      Rat.cast_le.2 (by norm_num; linarith [w1.2, z1.2])
    have c2 : ((255 * (t / r) - 1 / 10 ^ 10 : ℚ) : ℝ) ≤ (v : ℝ) :=
      Rat.cast_le.2 (by norm_num; linarith [w1.1, z1.1])
    push_cast at c1 c2
    exact ⟨c1, c2⟩
  have r0' : (1 / 5000 : ℝ) ≤ r := by
    have := (Rat.cast_le (K := ℝ)).2 r0
    push_cast at this
    exact this
  have D : |(t : ℝ) / r - (M - A) / (B - A)| ≤ 1 / 10 ^ 7 := by
    have hB : 0 < B - A := by linarith
    have hr : (0 : ℝ) < r := by linarith
    have : (t : ℝ) / r - (M - A) / (B - A) = ((t - (M - A)) + (M - A) / (B - A) * ((B - A) - r)) / r := by
      field_simp
      ring
    have k1 : (M - A) / (B - A) ≤ 1 := (div_le_one hB).2 (by linarith)
    have k0 : 0 ≤ (M - A) / (B - A) := div_nonneg (by linarith) hB.le
    rw [this, abs_div, abs_of_pos hr, div_le_iff₀ hr]
    have n1 : |(t : ℝ) - (M - A)| ≤ 1 / 10 ^ 11 := abs_le.2 ⟨by linarith [T1.2], by linarith [T1.1]⟩
    have n2 : |(M - A) / (B - A) * ((B - A) - r)| ≤ 1 * (1 / 10 ^ 11) := by
      rw [abs_mul, abs_of_nonneg k0]
      exact mul_le_mul k1 (abs_le.2 ⟨by linarith [R1.1], by linarith [R1.2]⟩) (abs_nonneg _) (by norm_num)
    refine (abs_add_le _ _).trans ?_
    norm_num at n1 n2 ⊢
    linarith
  have D := abs_le.1 D
  rw [mul_div_assoc, abs_le]
  norm_num at D V1 ⊢
  constructor <;> linarith [D.1, D.2, V1.1, V1.2]

end FlatCV
