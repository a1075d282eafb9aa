/-
Corner response: the arithmetic at one pixel.
-/
import Verif.Model.Foerstner
import Verif.Lemmas.ResizeNum
import Verif.Lemmas.SobelNum

namespace FlatCV
open Model

/-- Rounding error relative to a bound that is not tiny. -/
theorem rnd64_scaled {x B : ℚ} (h : |x| ≤ B) (hB : 1 / 2 ^ 200 ≤ B) : |Fmt.b64.rnd x - x| ≤ B / 2 ^ 52 := by
  have h1 := rnd64_err x
  have h2 : (1 : ℚ) / 2 ^ 1075 ≤ 1 / 2 ^ 253 :=
    one_div_le_one_div_of_le (by positivity) (pow_le_pow_right₀ (by norm_num) (by norm_num))
  have h3 : (1 : ℚ) / 2 ^ 253 ≤ B / 2 ^ 53 := by
    have : (1 : ℚ) / 2 ^ 253 = 1 / 2 ^ 200 / 2 ^ 53 := by norm_num
    rw [this]
    exact div_le_div_of_nonneg_right hB (by positivity)
  have h4 : |x| / 2 ^ 53 ≤ B / 2 ^ 53 := div_le_div_of_nonneg_right h (by positivity)
  have h5 : B / 2 ^ 52 = B / 2 ^ 53 + B / 2 ^ 53 := by ring
  linarith

/-- Error of a quotient. -/
theorem quot_err {n m N M e δ : ℚ} (hM : 0 < M) (hN : 0 ≤ N) (h0 : 0 ≤ e) (hd0 : 0 ≤ δ) (hd : δ ≤ 1 / 2)
    (hn : |n - N| ≤ e) (hm : |m - M| ≤ δ * M) :
    |n / m - N / M| ≤ (e + N * δ) / (M * (1 - δ)) ∧ 0 < m := by
  rw [abs_le] at hm
  have hmm : M * (1 - δ) ≤ m := by nlinarith [hm.1]
  have hp : 0 < M * (1 - δ) := mul_pos hM (by linarith)
  have hm0 : 0 < m := lt_of_lt_of_le hp hmm
  refine ⟨?_, hm0⟩
  have e1 : n / m - N / M = ((n - N) * M + N * (M - m)) / (m * M) := by
    field_simp
    ring
  rw [e1, abs_div, abs_of_pos (mul_pos hm0 hM), div_le_div_iff₀ (mul_pos hm0 hM) hp]
  have e2 : |(n - N) * M + N * (M - m)| ≤ (e + N * δ) * M := by
    refine (abs_add_le _ _).trans ?_
    rw [abs_mul, abs_mul, abs_of_pos hM, abs_of_nonneg hN]
    have : |M - m| ≤ δ * M := by rw [abs_le]; constructor <;> linarith [hm.1, hm.2]
    have := mul_le_mul_of_nonneg_left this hN
    have := mul_le_mul_of_nonneg_right hn hM.le
    linarith
  have e3 : 0 ≤ e + N * δ := by positivity
  calc |(n - N) * M + N * (M - m)| * (M * (1 - δ)) ≤ (e + N * δ) * M * (M * (1 - δ)) :=
        mul_le_mul_of_nonneg_right e2 hp.le
    _ ≤ (e + N * δ) * M * m := mul_le_mul_of_nonneg_left hmm (by positivity)
    _ = (e + N * δ) * (m * M) := by ring

/-- The measures of one pixel, without the monad. -/
def detF (a c b : ℚ) : ℚ := Fmt.b64.rnd (Fmt.b64.rnd (a * b) - Fmt.b64.rnd (c * c))
def trF (a b : ℚ) : ℚ := Fmt.b64.rnd (a + b)
def wF (a c b : ℚ) : ℚ := if |trF a b| > tiny10 then max 0 (Fmt.b64.rnd (detF a c b / trF a b)) else 0
def qF (a c b : ℚ) : ℚ :=
  if |trF a b| > tiny10 then
    max 0 (Fmt.b64.rnd (Fmt.b64.rnd (4 * detF a c b) / Fmt.b64.rnd (trF a b * trF a b))) else 0

theorem tiny10_pos : 0 < tiny10 := by unfold tiny10; norm_num

theorem rnd64_bound {x B : ℚ} (h : |x| ≤ B) (hB : 1 / 2 ^ 200 ≤ B) : |Fmt.b64.rnd x| ≤ 2 * B := by
  have h1 := rnd64_scaled h hB
  have h2 : B / 2 ^ 52 ≤ B := div_le_self (le_trans (by positivity) hB) (by norm_num)
  have h3 : |Fmt.b64.rnd x| ≤ |Fmt.b64.rnd x - x| + |x| := by
    have := abs_add_le (Fmt.b64.rnd x - x) x
    simpa using this
  linarith

/-- No operation leaves the range of doubles. -/
theorem foerMeasure_ok {a c b : ℚ} (ha : |a| ≤ 2 ^ 15) (hc : |c| ≤ 2 ^ 15) (hb : |b| ≤ 2 ^ 15) :
    foerMeasure a c b = .ok (wF a c b, qF a c b) ∧ wF a c b ≤ 2 ^ 80 ∧ qF a c b ≤ 2 ^ 120 := by
  have m1 : |a * b| ≤ 2 ^ 30 := by
    rw [abs_mul]
    calc |a| * |b| ≤ 2 ^ 15 * 2 ^ 15 := mul_le_mul ha hb (abs_nonneg _) (by positivity)
      _ = 2 ^ 30 := by norm_num
  have m2 : |c * c| ≤ 2 ^ 30 := by
    rw [abs_mul]
    calc |c| * |c| ≤ 2 ^ 15 * 2 ^ 15 := mul_le_mul hc hc (abs_nonneg _) (by positivity)
      _ = 2 ^ 30 := by norm_num
  have r1 := rnd64_bound m1 (by norm_num)
  have r2 := rnd64_bound m2 (by norm_num)
  have m3 : |Fmt.b64.rnd (a * b) - Fmt.b64.rnd (c * c)| ≤ 2 ^ 32 := by
    refine (abs_sub _ _).trans ?_
    norm_num at *
    linarith
  have r3 : |detF a c b| ≤ 2 ^ 33 := (rnd64_bound m3 (by norm_num)).trans (by norm_num)
  have m4 : |a + b| ≤ 2 ^ 16 := (abs_add_le _ _).trans (by norm_num at *; linarith)
  have r4 : |trF a b| ≤ 2 ^ 17 := (rnd64_bound m4 (by norm_num)).trans (by norm_num)
  have big : ∀ {x : ℚ}, |x| ≤ 2 ^ 150 → |x| ≤ 10 ^ 60 := fun h => h.trans (by norm_num)
  have e1 : f64 (a * b) = .ok (Fmt.b64.rnd (a * b)) := f64_ok (big (m1.trans (by norm_num)))
  have e2 : f64 (c * c) = .ok (Fmt.b64.rnd (c * c)) := f64_ok (big (m2.trans (by norm_num)))
  have e3 : f64 (Fmt.b64.rnd (a * b) - Fmt.b64.rnd (c * c)) = .ok (detF a c b) :=
    f64_ok (big (m3.trans (by norm_num)))
  have e4 : f64 (a + b) = .ok (trF a b) := f64_ok (big (m4.trans (by norm_num)))
  unfold foerMeasure wF qF
  rw [e1, ok_bind, e2, ok_bind, e3, ok_bind, e4, ok_bind]
  generalize detF a c b = D at *
  generalize trF a b = T at *
  by_cases ht : |T| > tiny10
  · rw [if_pos ht, if_pos ht, if_pos ht]
    have htp : 0 < |T| := lt_trans tiny10_pos ht
    have ht0 : T ≠ 0 := abs_pos.1 htp
    have hinv : ∀ {x : ℚ}, 1 / 2 ^ 34 ≤ |T| := fun {_} => le_trans (by unfold tiny10; norm_num) ht.le
    have hT : 1 / 2 ^ 34 ≤ |T| := le_trans (by unfold tiny10; norm_num) ht.le
    have q1 : |D / T| ≤ 2 ^ 67 := by
      rw [abs_div, div_le_iff₀ htp]
      refine r3.trans ?_
      calc (2 : ℚ) ^ 33 = 2 ^ 67 * (1 / 2 ^ 34) := by norm_num
        _ ≤ 2 ^ 67 * |T| := mul_le_mul_of_nonneg_left hT (by positivity)
    have q2 : |4 * D| ≤ 2 ^ 35 := by
      rw [abs_mul]
      norm_num at *
      linarith
    have q2' : |Fmt.b64.rnd (4 * D)| ≤ 2 ^ 36 := (rnd64_bound q2 (by norm_num)).trans (by norm_num)
    have q3 : |T * T| ≤ 2 ^ 34 := by
      rw [abs_mul]
      calc |T| * |T| ≤ 2 ^ 17 * 2 ^ 17 := mul_le_mul r4 r4 (abs_nonneg _) (by positivity)
        _ = 2 ^ 34 := by norm_num
    have q4 : 1 / 2 ^ 68 ≤ Fmt.b64.rnd (T * T) := by
      refine le_rnd _ ?_ ?_
      · rw [← abs_mul_abs_self]
        calc (1 : ℚ) / 2 ^ 68 = 1 / 2 ^ 34 * (1 / 2 ^ 34) := by norm_num
          _ ≤ |T| * |T| := mul_le_mul hT hT (by positivity) (abs_nonneg _)
      · exact rnd64_inv_pow (by norm_num)
    have q4p : 0 < Fmt.b64.rnd (T * T) := lt_of_lt_of_le (by positivity) q4
    have q5 : |Fmt.b64.rnd (4 * D) / Fmt.b64.rnd (T * T)| ≤ 2 ^ 104 := by
      rw [abs_div, abs_of_pos q4p, div_le_iff₀ q4p]
      refine q2'.trans ?_
      calc (2 : ℚ) ^ 36 = 2 ^ 104 * (1 / 2 ^ 68) := by norm_num
        _ ≤ 2 ^ 104 * Fmt.b64.rnd (T * T) := mul_le_mul_of_nonneg_left q4 (by positivity)
    rw [f64div_ok ht0 (big (q1.trans (by norm_num))), ok_bind, f64_ok (big (q2.trans (by norm_num))), ok_bind,
      f64_ok (big (q3.trans (by norm_num))), ok_bind, f64div_ok q4p.ne' (big (q5.trans (by norm_num))), ok_bind]
    refine ⟨rfl, max_le (by positivity) ?_, max_le (by positivity) ?_⟩
    · exact (le_abs_self _).trans ((rnd64_bound q1 (by norm_num)).trans (by norm_num))
    · exact (le_abs_self _).trans ((rnd64_bound q5 (by norm_num)).trans (by norm_num))
  · rw [if_neg ht, if_neg ht, if_neg ht]
    exact ⟨rfl, by positivity, by positivity⟩

theorem wF_nonneg (a c b : ℚ) : 0 ≤ wF a c b := by
  unfold wF
  split_ifs
  · exact le_max_left _ _
  · exact le_refl _

theorem qF_nonneg (a c b : ℚ) : 0 ≤ qF a c b := by
  unfold qF
  split_ifs
  · exact le_max_left _ _
  · exact le_refl _

theorem wF_zero : wF 0 0 0 = 0 := by
  unfold wF trF
  rw [if_neg]
  simp [rnd_zero, tiny10_pos.le]

theorem qF_zero : qF 0 0 0 = 0 := by
  unfold qF trF
  rw [if_neg]
  simp [rnd_zero, tiny10_pos.le]

/-! ### Bytes -/

/-- `v` is a multiple of the smallest double and has at most 53 bits: rounding `255 v` has a small relative
error even for subnormal numbers. -/
theorem rnd_255 {v : ℚ} (hv : Fmt.b64.Rep v) (h0 : 0 ≤ v) :
    |Fmt.b64.rnd (255 * v) - 255 * v| ≤ 255 * v / 2 ^ 53 := by
  by_cases hx : (2 : ℚ) ^ (Fmt.b64.emin + Fmt.b64.p - 1) ≤ |255 * v|
  · have := rnd_rel Fmt.b64 hx
    rw [abs_of_nonneg (by positivity : (0 : ℚ) ≤ 255 * v)] at this
    exact this
  · have hx := not_le.1 hx
    obtain ⟨⟨m, e, he, hm, rfl⟩, -⟩ := hv
    have hem : Fmt.b64.emin = -1074 := rfl
    obtain ⟨k, hk⟩ : ∃ k : ℕ, e = -1074 + k := ⟨(e + 1074).toNat, by omega⟩
    subst hk
    rw [zpow_add₀ (by norm_num), zpow_natCast] at *
    set K : ℤ := m * 2 ^ k with hK
    have e1 : (m : ℚ) * (2 ^ (-1074 : ℤ) * 2 ^ k) = (K : ℚ) * 2 ^ (-1074 : ℤ) := by rw [hK]; push_cast; ring
    rw [e1] at h0 hx ⊢
    have hp : (0 : ℚ) < 2 ^ (-1074 : ℤ) := by positivity
    have e2 : (255 : ℚ) * (K * 2 ^ (-1074 : ℤ)) = ((255 * K : ℤ) : ℚ) * 2 ^ (-1074 : ℤ) := by push_cast; ring
    have hK0 : (0 : ℚ) ≤ K := by
      by_contra hc
      have := mul_neg_of_neg_of_pos (not_le.1 hc) hp
      linarith
    have hlt : ((255 * K : ℤ) : ℚ) < 2 ^ 52 := by
      rw [abs_of_nonneg (by positivity), e2,
        show Fmt.b64.emin + (Fmt.b64.p : ℤ) - 1 = -1074 + (52 : ℕ) by decide, zpow_add₀ (by norm_num), zpow_natCast] at hx
      by_contra hc
      have := mul_le_mul_of_nonneg_right (not_lt.1 hc) hp.le
      rw [mul_comm] at hx
      linarith
    have hlt' : 255 * K < 2 ^ 52 := by exact_mod_cast hlt
    have hK0' : 0 ≤ K := by exact_mod_cast hK0
    have := rnd_exact Fmt.b64 (m := 255 * K) (e := -1074) (by rw [hem]) (by
      rw [abs_of_nonneg (by omega)]
      have : (2 : ℤ) ^ Fmt.b64.p = 9007199254740992 := rfl
      omega)
    rw [e2, this, sub_self, abs_zero]
    positivity

/-- One normalised byte, without the monad. -/
def byteF (m v : ℚ) : UInt8 :=
  if m > 0 then u8OfInt ⌊Fmt.b64.rnd (Fmt.b64.rnd (255 * v) / m)⌋ else 0

theorem foerByte_ok {m v : ℚ} (hv : Fmt.b64.Rep v) (h0 : 0 ≤ v) (h1 : v ≤ m) (hm : m ≤ 2 ^ 150) :
    foerByte m v = .ok (byteF m v) ∧
      (0 < m → 255 * (v / m) - 1 - 1 / 2 ^ 40 < ((byteF m v).toNat : ℚ) ∧
        ((byteF m v).toNat : ℚ) ≤ 255 * (v / m) + 1 / 2 ^ 40) := by
  unfold foerByte byteF
  by_cases hmp : m > 0
  · rw [if_pos hmp, if_pos hmp]
    have hmp' : (0 : ℚ) < m := hmp
    have r1 := rnd_255 hv h0
    have hvm : v / m ≤ 1 := by rw [div_le_one hmp']; exact h1
    have hvm0 : 0 ≤ v / m := div_nonneg h0 hmp'.le
    have n1 : 0 ≤ Fmt.b64.rnd (255 * v) := rnd_nonneg _ (by positivity)
    have hd : |Fmt.b64.rnd (255 * v) / m - 255 * (v / m)| ≤ 255 / 2 ^ 53 := by
      have : Fmt.b64.rnd (255 * v) / m - 255 * (v / m) = (Fmt.b64.rnd (255 * v) - 255 * v) / m := by ring
      rw [this, abs_div, abs_of_pos hmp', div_le_iff₀ hmp']
      refine r1.trans ?_
      rw [div_mul_eq_mul_div]
      exact div_le_div_of_nonneg_right (mul_le_mul_of_nonneg_left h1 (by norm_num)) (by positivity)
    have hq0 : 0 ≤ Fmt.b64.rnd (255 * v) / m := div_nonneg n1 hmp'.le
    rw [abs_le] at hd
    have hq1 : |Fmt.b64.rnd (255 * v) / m| ≤ 256 := by
      rw [abs_of_nonneg hq0]
      norm_num at *
      linarith
    have r2 := rnd64_scaled hq1 (by norm_num)
    rw [abs_le] at r2
    have hb0 : 0 ≤ Fmt.b64.rnd (Fmt.b64.rnd (255 * v) / m) := rnd_nonneg _ hq0
    have hb1 : Fmt.b64.rnd (Fmt.b64.rnd (255 * v) / m) < 256 := by
      norm_num at *
      linarith
    have v1 : |255 * v| ≤ 10 ^ 60 := by
      rw [abs_of_nonneg (by positivity)]
      have : v ≤ 2 ^ 150 := h1.trans hm
      norm_num at *
      linarith
    rw [f64_ok v1, ok_bind, f64div_ok hmp'.ne' (hq1.trans (by norm_num)), ok_bind, castU8_ok hb0 hb1]
    refine ⟨rfl, fun _ => ?_⟩
    have hf0 : 0 ≤ ⌊Fmt.b64.rnd (Fmt.b64.rnd (255 * v) / m)⌋ := Int.floor_nonneg.2 hb0
    have hf1 : ⌊Fmt.b64.rnd (Fmt.b64.rnd (255 * v) / m)⌋ < 256 := Int.floor_lt.2 (by exact_mod_cast hb1)
    have hlo := Int.lt_floor_add_one (Fmt.b64.rnd (Fmt.b64.rnd (255 * v) / m))
    have hhi := Int.floor_le (Fmt.b64.rnd (Fmt.b64.rnd (255 * v) / m))
    generalize ⌊Fmt.b64.rnd (Fmt.b64.rnd (255 * v) / m)⌋ = z at *
    have hz : ((u8OfInt z).toNat : ℚ) = z := by
      have : ((u8OfInt z).toNat : ℤ) = z := by
        unfold u8OfInt
        rw [UInt8.toNat_ofNat']
        omega
      exact_mod_cast congrArg (Int.cast (R := ℚ)) this
    rw [hz]
    norm_num at *
    constructor <;> linarith
  · rw [if_neg hmp, if_neg hmp]
    exact ⟨rfl, fun h => absurd h hmp⟩

/-! ### Accuracy of the two measures -/

section
variable {A B C : ℚ}

theorem det_err (hA : 1 / 2 ^ 40 ≤ A) (hB : 1 / 2 ^ 40 ≤ B) (hC : C = 0 ∨ 1 / 2 ^ 40 ≤ |C|)
    (hCS : C * C ≤ A * B) :
    |detF (Fmt.b64.rnd A) (Fmt.b64.rnd C) (Fmt.b64.rnd B) - (A * B - C * C)| ≤ 10 / 2 ^ 52 * (A * B) := by
  have a0 : 0 < A := lt_of_lt_of_le (by positivity) hA
  have b0 : 0 < B := lt_of_lt_of_le (by positivity) hB
  have ea : |Fmt.b64.rnd A - A| ≤ A / 2 ^ 52 :=
    rnd64_scaled (by rw [abs_of_pos a0]) (le_trans (by norm_num) hA)
  have eb : |Fmt.b64.rnd B - B| ≤ B / 2 ^ 52 :=
    rnd64_scaled (by rw [abs_of_pos b0]) (le_trans (by norm_num) hB)
  have ec : |Fmt.b64.rnd C - C| ≤ |C| / 2 ^ 52 := by
    rcases hC with rfl | hC
    · simp [rnd_zero]
    · exact rnd64_scaled le_rfl (le_trans (by norm_num) hC)
  unfold detF
  generalize Fmt.b64.rnd A = a at *
  generalize Fmt.b64.rnd B = b at *
  generalize Fmt.b64.rnd C = c at *
  have prod : ∀ {x y X Y : ℚ}, |x - X| ≤ |X| / 2 ^ 52 → |y - Y| ≤ |Y| / 2 ^ 52 →
      |x * y - X * Y| ≤ (2 / 2 ^ 52 + 1 / 2 ^ 104) * |X * Y| := by
    intro x y X Y h1 h2
    have : x * y - X * Y = (x - X) * (y - Y) + (x - X) * Y + X * (y - Y) := by ring
    rw [this]
    refine (abs_add_three _ _ _).trans ?_
    rw [abs_mul, abs_mul, abs_mul, abs_mul]
    have g1 := mul_le_mul h1 h2 (abs_nonneg _) (by positivity)
    have g2 := mul_le_mul_of_nonneg_right h1 (abs_nonneg Y)
    have g3 := mul_le_mul_of_nonneg_left h2 (abs_nonneg X)
    refine (add_le_add (add_le_add g1 g2) g3).trans (le_of_eq ?_)
    ring
  have S0 : 1 / 2 ^ 80 ≤ A * B := by
    calc (1 : ℚ) / 2 ^ 80 = 1 / 2 ^ 40 * (1 / 2 ^ 40) := by norm_num
      _ ≤ A * B := mul_le_mul hA hB (by positivity) a0.le
  have CC : |C * C| ≤ A * B := by rw [abs_of_nonneg (mul_self_nonneg C)]; exact hCS
  have p1 := prod (by rw [abs_of_pos a0]; exact ea) (by rw [abs_of_pos b0]; exact eb)
  have p2 := prod ec ec
  have AB : |A * B| = A * B := abs_of_pos (mul_pos a0 b0)
  rw [AB] at p1
  have p2' : |c * c - C * C| ≤ (2 / 2 ^ 52 + 1 / 2 ^ 104) * (A * B) :=
    p2.trans (mul_le_mul_of_nonneg_left CC (by norm_num))
  generalize A * B = S at *
  have hCC : 0 ≤ C * C := mul_self_nonneg C
  generalize C * C = U at *
  have hU : |U| = U := abs_of_nonneg hCC
  have Sp : 0 < S := lt_of_lt_of_le (by positivity) S0
  have bd : ∀ {x X : ℚ}, |x - X| ≤ (2 / 2 ^ 52 + 1 / 2 ^ 104) * S → |X| ≤ S → |x| ≤ 9 / 8 * S := by
    intro x X h1 h2
    have : |x| ≤ |x - X| + |X| := by simpa using abs_add_le (x - X) X
    have : (2 / 2 ^ 52 + 1 / 2 ^ 104) * S ≤ 1 / 8 * S := mul_le_mul_of_nonneg_right (by norm_num) Sp.le
    linarith
  have q1 := rnd64_scaled (bd p1 AB.le) (by norm_num at *; linarith)
  have q2 := rnd64_scaled (bd p2' CC) (by norm_num at *; linarith)
  generalize Fmt.b64.rnd (a * b) = x at *
  generalize Fmt.b64.rnd (c * c) = y at *
  have bx : |x - y| ≤ 5 / 4 * S := by
    rw [abs_le] at *
    norm_num at *
    constructor <;> linarith [p1.1, p1.2, p2'.1, p2'.2, q1.1, q1.2, q2.1, q2.2]
  have q3 := rnd64_scaled bx (by norm_num at *; linarith)
  generalize Fmt.b64.rnd (x - y) = z at *
  rw [abs_le] at *
  norm_num at *
  constructor <;> linarith [p1.1, p1.2, p2'.1, p2'.2, q1.1, q1.2, q2.1, q2.2, q3.1, q3.2]

theorem tr_err (hA : 0 ≤ A) (hB : 0 ≤ B) (hA' : A = 0 ∨ 1 / 2 ^ 40 ≤ A) (hB' : B = 0 ∨ 1 / 2 ^ 40 ≤ B)
    (hT : 1 / 2 ^ 40 ≤ A + B) :
    |trF (Fmt.b64.rnd A) (Fmt.b64.rnd B) - (A + B)| ≤ 3 / 2 ^ 52 * (A + B) := by
  have e : ∀ {x : ℚ}, x = 0 ∨ 1 / 2 ^ 40 ≤ x → |Fmt.b64.rnd x - x| ≤ x / 2 ^ 52 := by
    intro x hx
    rcases hx with rfl | hx
    · simp [rnd_zero]
    · exact rnd64_scaled (by rw [abs_of_nonneg (le_trans (by positivity) hx)]) (le_trans (by norm_num) hx)
  have ea := e hA'
  have eb := e hB'
  unfold trF
  generalize Fmt.b64.rnd A = a at *
  generalize Fmt.b64.rnd B = b at *
  have h1 : |a + b| ≤ 9 / 8 * (A + B) := by
    rw [abs_le] at *
    norm_num at *
    constructor <;> linarith
  have h2 := rnd64_scaled h1 (by norm_num at *; linarith)
  generalize Fmt.b64.rnd (a + b) = t at *
  rw [abs_le] at *
  norm_num at *
  constructor <;> linarith

/-- Both measures are close to those of the exact means. -/
theorem measure_near (hA' : A = 0 ∨ 1 / 2 ^ 40 ≤ A) (hB' : B = 0 ∨ 1 / 2 ^ 40 ≤ B)
    (hC : C = 0 ∨ 1 / 2 ^ 40 ≤ |C|) (hCS : C * C ≤ A * B) (hAu : A ≤ 2 ^ 15)
    (hT : A + B = 0 ∨ 15 / 10 ^ 11 ≤ A + B) :
    |wF (Fmt.b64.rnd A) (Fmt.b64.rnd C) (Fmt.b64.rnd B) - (A * B - C * C) / (A + B)| ≤ 1 / 2 ^ 30 ∧
    |qF (Fmt.b64.rnd A) (Fmt.b64.rnd C) (Fmt.b64.rnd B) - 4 * (A * B - C * C) / (A + B) ^ 2| ≤ 1 / 2 ^ 40 := by
  have hA : 0 ≤ A := by rcases hA' with h | h <;> [rw [h]; exact le_trans (by positivity) h]
  have hB : 0 ≤ B := by rcases hB' with h | h <;> [rw [h]; exact le_trans (by positivity) h]
  rcases hT with hT | hT
  · have h1 : A = 0 := by linarith
    have h2 : B = 0 := by linarith
    subst h1 h2
    have h3 : C = 0 := by nlinarith
    subst h3
    rw [rnd_zero, wF_zero, qF_zero]
    norm_num
  have T40 : 1 / 2 ^ 40 ≤ A + B := le_trans (by norm_num) hT
  have T0 : 0 < A + B := lt_of_lt_of_le (by positivity) T40
  have ht := tr_err hA hB hA' hB' T40
  -- the determinant, exact when one of the means vanishes
  have hd : |detF (Fmt.b64.rnd A) (Fmt.b64.rnd C) (Fmt.b64.rnd B) - (A * B - C * C)| ≤ 10 / 2 ^ 52 * (A * B) := by
    have zero : A * B = 0 → C = 0 := fun h => by
      have : C * C ≤ 0 := by rw [← h]; exact hCS
      nlinarith
    rcases hA' with h | h1
    · have := zero (by rw [h, zero_mul])
      subst h this
      simp [detF, rnd_zero]
    · rcases hB' with h | h2
      · have := zero (by rw [h, mul_zero])
        subst h this
        simp [detF, rnd_zero]
      · exact det_err h1 h2 hC hCS
  have hD0 : 0 ≤ A * B - C * C := by linarith
  have hD1 : A * B - C * C ≤ A * B := by linarith [mul_self_nonneg C]
  have hAB : A * B ≤ 2 ^ 15 * (A + B) := by
    have := mul_le_mul_of_nonneg_right hAu hB
    have := mul_nonneg (by norm_num : (0 : ℚ) ≤ 2 ^ 15) hA
    linarith
  have hAB2 : 4 * (A * B) ≤ (A + B) ^ 2 := by nlinarith [sq_nonneg (A - B)]
  unfold wF qF
  generalize detF (Fmt.b64.rnd A) (Fmt.b64.rnd C) (Fmt.b64.rnd B) = det at *
  generalize trF (Fmt.b64.rnd A) (Fmt.b64.rnd B) = tr at *
  generalize A * B - C * C = D at *
  have hS : 0 ≤ A * B := mul_nonneg hA hB
  generalize A * B = S at *
  generalize A + B = T at *
  have ht1 : |tr| > tiny10 := by
    refine lt_of_lt_of_le ?_ (le_abs_self _)
    rw [abs_le] at ht
    unfold tiny10
    norm_num at *
    linarith
  rw [if_pos ht1, if_pos ht1]
  have cut : ∀ {x X e : ℚ}, 0 ≤ X → |x - X| ≤ e → |max 0 x - X| ≤ e := by
    intro x X e hX h
    rw [abs_le] at *
    rcases le_total 0 x with h0 | h0
    · rw [max_eq_right h0]; exact h
    · rw [max_eq_left h0]; constructor <;> linarith
  refine ⟨cut (by positivity) ?_, cut (by positivity) ?_⟩
  · obtain ⟨q, -⟩ := quot_err T0 hD0 (e := 10 / 2 ^ 52 * S) (δ := 3 / 2 ^ 52) (by positivity) (by norm_num)
      (by norm_num) hd ht
    have hq : (10 / 2 ^ 52 * S + D * (3 / 2 ^ 52)) / (T * (1 - 3 / 2 ^ 52)) ≤ 2 ^ 15 * 16 / 2 ^ 52 := by
      rw [div_le_iff₀ (mul_pos T0 (by norm_num))]
      norm_num at *
      linarith
    have hX : D / T ≤ 2 ^ 15 := by rw [div_le_iff₀ T0]; linarith
    have hX0 : 0 ≤ D / T := by positivity
    have hb : |det / tr| ≤ 2 ^ 16 := by
      rw [abs_le] at *
      norm_num at *
      constructor <;> linarith
    have r := rnd64_scaled hb (by norm_num)
    rw [abs_le] at *
    norm_num at *
    constructor <;> linarith
  · have hT2 : 0 < T ^ 2 := by positivity
    have hn : |4 * det| ≤ 8 * T ^ 2 := by
      rw [abs_le] at *
      norm_num at *
      constructor <;> linarith
    have T2 : 1 / 2 ^ 80 ≤ T ^ 2 := by
      rw [sq]
      calc (1 : ℚ) / 2 ^ 80 = 1 / 2 ^ 40 * (1 / 2 ^ 40) := by norm_num
        _ ≤ T * T := mul_le_mul T40 T40 (by positivity) T0.le
    have r1 := rnd64_scaled hn (by norm_num at *; linarith)
    have htt : |tr * tr - T ^ 2| ≤ 7 / 2 ^ 52 * T ^ 2 := by
      have : tr * tr - T ^ 2 = (tr - T) * (tr - T) + 2 * T * (tr - T) := by ring
      rw [this]
      refine (abs_add_le _ _).trans ?_
      rw [abs_mul, abs_mul, abs_of_pos (by positivity : (0 : ℚ) < 2 * T)]
      have g1 := mul_le_mul ht ht (abs_nonneg _) (by positivity)
      have g2 := mul_le_mul_of_nonneg_left ht (by positivity : (0 : ℚ) ≤ 2 * T)
      have g3 : (3 / 2 ^ 52 * T) * (3 / 2 ^ 52 * T) = (9 / 2 ^ 104) * T ^ 2 := by ring
      have g4 : 2 * T * (3 / 2 ^ 52 * T) = (6 / 2 ^ 52) * T ^ 2 := by ring
      norm_num at *
      linarith
    have h3 : |tr * tr| ≤ 2 * T ^ 2 := by
      rw [abs_le] at *
      norm_num at *
      constructor <;> linarith
    have r2 := rnd64_scaled h3 (by norm_num at *; linarith)
    have hn' : |Fmt.b64.rnd (4 * det) - 4 * D| ≤ 18 / 2 ^ 52 * T ^ 2 := by
      rw [abs_le] at *
      norm_num at *
      constructor <;> linarith
    have hm' : |Fmt.b64.rnd (tr * tr) - T ^ 2| ≤ 9 / 2 ^ 52 * T ^ 2 := by
      rw [abs_le] at *
      norm_num at *
      constructor <;> linarith
    obtain ⟨q, -⟩ := quot_err hT2 (by positivity : 0 ≤ 4 * D) (e := 18 / 2 ^ 52 * T ^ 2) (δ := 9 / 2 ^ 52)
      (by positivity) (by norm_num) (by norm_num) hn' hm'
    have hq : (18 / 2 ^ 52 * T ^ 2 + 4 * D * (9 / 2 ^ 52)) / (T ^ 2 * (1 - 9 / 2 ^ 52)) ≤ 28 / 2 ^ 52 := by
      rw [div_le_iff₀ (mul_pos hT2 (by norm_num))]
      norm_num at *
      linarith
    have hX : 4 * D / T ^ 2 ≤ 1 := by rw [div_le_iff₀ hT2]; linarith
    have hX0 : 0 ≤ 4 * D / T ^ 2 := by positivity
    have hb : |Fmt.b64.rnd (4 * det) / Fmt.b64.rnd (tr * tr)| ≤ 2 := by
      rw [abs_le] at *
      norm_num at *
      constructor <;> linarith
    have r := rnd64_scaled hb (by norm_num)
    rw [abs_le] at *
    norm_num at *
    constructor <;> linarith

end

end FlatCV
