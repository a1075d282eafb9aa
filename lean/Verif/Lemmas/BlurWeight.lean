/-
Entries of the blur kernel.
-/
import Verif.Lemmas.BlurKernel

namespace FlatCV

open Model

theorem sub_exact {r : ℚ} (hr : Fmt.b64.Rep r) (h2 : r ≤ 1000) {j : ℕ}
    (hj : (j : ℤ) ≤ 2 * ⌊r⌋) (h0 : 0 ≤ r) : Fmt.b64.rnd ((j : ℚ) - r) = (j : ℚ) - r := by
  have hjr : |(j : ℚ) - r| ≤ r := by
    have h3 : (j : ℚ) ≤ 2 * r := by
      have h4 := Int.floor_le r
      have h5 : ((j : ℤ) : ℚ) ≤ ((2 * ⌊r⌋ : ℤ) : ℚ) := by exact_mod_cast hj
      push_cast at h5
      linarith
    have h6 : (0 : ℚ) ≤ j := Nat.cast_nonneg j
    rw [abs_le]
    constructor <;> linarith
  obtain ⟨⟨m, e, he, hm, rfl⟩, -⟩ := hr
  rcases le_or_gt e 0 with h | h
  · obtain ⟨n, rfl⟩ : ∃ n : ℕ, e = -(n : ℤ) := ⟨(-e).toNat, by omega⟩
    have hp : (0 : ℚ) < 2 ^ n := by positivity
    have e1 : (j : ℚ) - m * 2 ^ (-(n : ℤ)) = (((j : ℤ) * 2 ^ n - m : ℤ) : ℚ) * 2 ^ (-(n : ℤ)) := by
      rw [zpow_neg, zpow_natCast]
      push_cast
      field_simp
    have hb : |((j : ℤ) * 2 ^ n - m : ℤ)| ≤ 2 ^ 53 := by
      have h3 : |(((j : ℤ) * 2 ^ n - m : ℤ) : ℚ)| ≤ |(m : ℚ)| := by
        rw [e1, abs_mul] at hjr
        have h4 : (m : ℚ) * 2 ^ (-(n : ℤ)) ≤ |(m : ℚ)| * |(2 : ℚ) ^ (-(n : ℤ))| := by
          rw [← abs_mul]; exact le_abs_self _
        exact le_of_mul_le_mul_right (hjr.trans h4) (by positivity)
      have h5 : |((j : ℤ) * 2 ^ n - m : ℤ)| ≤ |m| := by exact_mod_cast h3
      exact h5.trans hm
    rw [e1]
    exact rnd_exact Fmt.b64 he hb
  · obtain ⟨n, rfl⟩ : ∃ n : ℕ, e = (n : ℤ) := ⟨e.toNat, by omega⟩
    have e1 : (j : ℚ) - m * 2 ^ (n : ℤ) = (((j : ℤ) - m * 2 ^ n : ℤ) : ℚ) := by
      rw [zpow_natCast]; push_cast; ring
    rw [e1] at hjr ⊢
    apply rnd64_int
    have h3 : |(((j : ℤ) - m * 2 ^ n : ℤ) : ℚ)| ≤ 1000 := hjr.trans h2
    have h4 : |((j : ℤ) - m * 2 ^ n : ℤ)| ≤ 1000 := by exact_mod_cast h3
    linarith

theorem trunc_offset (r : ℚ) (j : ℕ) : trunc ((j : ℚ) - r) = codeOffset r (j - ⌊r⌋) := by
  unfold codeOffset
  by_cases hi : r = (⌊r⌋ : ℚ)
  · rw [if_neg (by tauto)]
    have : (j : ℚ) - r = (((j : ℤ) - ⌊r⌋ : ℤ) : ℚ) := by
      push_cast; rw [← hi]
    rw [this, trunc_int]
  · have h1 := Int.floor_le r
    have h2 := Int.lt_floor_add_one r
    have h3 : (⌊r⌋ : ℚ) < r := lt_of_le_of_ne h1 (Ne.symm hi)
    by_cases hj : (j : ℤ) ≤ ⌊r⌋
    · rw [if_neg (by omega)]
      have h4 : ((j : ℤ) : ℚ) ≤ (⌊r⌋ : ℚ) := by exact_mod_cast hj
      rw [Int.cast_natCast] at h4
      unfold trunc
      rw [if_neg (by linarith)]
      rw [Int.ceil_eq_iff]
      push_cast
      constructor <;> linarith
    · rw [if_pos ⟨hi, by omega⟩]
      have h4 : ((⌊r⌋ + 1 : ℤ) : ℚ) ≤ ((j : ℤ) : ℚ) := by
        exact_mod_cast (show ⌊r⌋ + 1 ≤ (j : ℤ) by omega)
      push_cast at h4
      unfold trunc
      rw [if_pos (by linarith), Int.floor_eq_iff]
      push_cast
      constructor <;> linarith

theorem codeOffset_abs {r : ℚ} {k : ℤ} {R : ℤ} (h : |k| ≤ R) : |codeOffset r k| ≤ R := by
  rw [abs_le] at h ⊢
  unfold codeOffset
  split_ifs <;> omega

/-- What the entry `K` for distance `x` satisfies; `s` is a common positive factor. -/
structure KerOk (r s : ℚ) (x : ℤ) (K : ℚ) : Prop where
  lo : 1 / 262144 ≤ K
  hi : K ≤ 2 ^ 75
  glo : gauss r x / s * (1 - 1 / 571428) ≤ (K : ℝ)
  ghi : (K : ℝ) ≤ gauss r x / s * (1 + 1 / 571428)

/-- The exponent computed in `float` is close to the exact one. -/
theorem arg_close {r t : ℚ} (hr : 1 ≤ r) {X : ℚ} (hX0 : 0 ≤ X) (hX1 : X = 0 ∨ 1 ≤ X) (hX : X ≤ r ^ 2)
    (h1 : 2 * r ^ 2 / 9 * (1 - 4.2 / 16777216) ≤ t) (h2 : t ≤ 2 * r ^ 2 / 9 * (1 + 4.2 / 16777216))
    (hr2 : r ≤ 1000) :
    |Fmt.b32.rnd (X / t) - X / (2 * (r / 3) ^ 2)| ≤ 24 / 16777216 := by
  have hD : 0 < 2 * r ^ 2 / 9 := by positivity
  have e : 2 * (r / 3) ^ 2 = 2 * r ^ 2 / 9 := by ring
  rw [e]
  set D := 2 * r ^ 2 / 9 with hDd
  have ht : 0 < t := lt_of_lt_of_le (mul_pos hD (by norm_num)) h1
  set g := X / D with hg
  have hg0 : 0 ≤ g := div_nonneg hX0 hD.le
  have hg1 : g ≤ 4.5 := by
    rw [hg, div_le_iff₀ hD, hDd]
    norm_num
    linarith
  have hXg : X = g * D := by rw [hg]; field_simp
  have q1 : X / t ≤ g * (1 + 4.21 / 16777216) := by
    rw [div_le_iff₀ ht]
    have : g * (1 + 4.21 / 16777216) * (D * (1 - 4.2 / 16777216)) ≤ g * (1 + 4.21 / 16777216) * t :=
      mul_le_mul_of_nonneg_left h1 (mul_nonneg hg0 (by norm_num))
    refine le_trans ?_ this
    rw [hXg]
    have h3 : 0 ≤ g * D := mul_nonneg hg0 hD.le
    have : g * D * 1 ≤ g * D * ((1 + 4.21 / 16777216) * (1 - 4.2 / 16777216)) :=
      mul_le_mul_of_nonneg_left (by norm_num) h3
    linarith
  have q2 : g * (1 - 4.2 / 16777216) ≤ X / t := by
    rw [le_div_iff₀ ht]
    have : g * (1 - 4.2 / 16777216) * t ≤ g * (1 - 4.2 / 16777216) * (D * (1 + 4.2 / 16777216)) :=
      mul_le_mul_of_nonneg_left h2 (mul_nonneg hg0 (by norm_num))
    refine le_trans this ?_
    rw [hXg]
    have h3 : 0 ≤ g * D := mul_nonneg hg0 hD.le
    have : g * D * ((1 - 4.2 / 16777216) * (1 + 4.2 / 16777216)) ≤ g * D * 1 :=
      mul_le_mul_of_nonneg_left (by norm_num) h3
    linarith
  have htiny : X / t = 0 ∨ 1 / 2 ^ 126 ≤ X / t := by
    rcases hX1 with h | h
    · left; rw [h]; simp
    · right
      rw [le_div_iff₀ ht]
      refine le_trans ?_ h
      have : t ≤ 1000000 := by
        refine h2.trans ?_
        rw [hDd]
        have : r ^ 2 ≤ 1000000 := by nlinarith
        nlinarith
      norm_num
      linarith
  obtain ⟨b1, b2⟩ := rnd32_rel htiny
  have e24 : (2 : ℚ) ^ 24 = 16777216 := by norm_num
  rw [e24] at b1 b2
  have hq0 : 0 ≤ X / t := div_nonneg hX0 ht.le
  rw [abs_le]
  norm_num at *
  constructor
  · nlinarith
  · nlinarith

theorem exp_neg_five : (1 : ℝ) / 149 ≤ Real.exp (-5) := by
  rw [Real.exp_neg, ← one_div]
  apply one_div_le_one_div_of_le (Real.exp_pos 5)
  have h := Real.exp_one_lt_d9
  have h0 := Real.exp_pos 1
  have e : Real.exp 5 = Real.exp 1 ^ 5 := by
    rw [← Real.exp_nat_mul]; norm_num
  rw [e]
  calc Real.exp 1 ^ 5 ≤ 2.7182818286 ^ 5 := pow_le_pow_left₀ h0.le h.le 5
    _ ≤ 149 := by norm_num

/-- Small changes of the exponent. -/
theorem exp_close {a g : ℝ} (h : |a - g| ≤ 24 / 16777216) :
    Real.exp g * (1 - 24 / 16777216) ≤ Real.exp a ∧ Real.exp a ≤ Real.exp g * (1 + 24.01 / 16777216) := by
  rw [abs_le] at h
  have hg := Real.exp_pos g
  have ha := Real.exp_pos a
  constructor
  · have e : Real.exp a = Real.exp g * Real.exp (a - g) := by rw [← Real.exp_add]; ring_nf
    rw [e]
    apply mul_le_mul_of_nonneg_left _ hg.le
    have := Real.add_one_le_exp (a - g)
    linarith
  · have e : Real.exp g = Real.exp a * Real.exp (g - a) := by rw [← Real.exp_add]; ring_nf
    have h1 := Real.add_one_le_exp (g - a)
    have h2 : Real.exp a * (1 - 24 / 16777216) ≤ Real.exp g := by
      rw [e]
      apply mul_le_mul_of_nonneg_left _ ha.le
      linarith
    have h3 : Real.exp a * (1 - 24 / 16777216) * (1 + 24.01 / 16777216) ≤ Real.exp g * (1 + 24.01 / 16777216) :=
      mul_le_mul_of_nonneg_right h2 (by norm_num)
    have h4 : Real.exp a * 1 ≤ Real.exp a * ((1 - 24 / 16777216) * (1 + 24.01 / 16777216)) :=
      mul_le_mul_of_nonneg_left (by norm_num) ha.le
    linarith

/-- The last two roundings of an entry. -/
theorem entry_ok {ex : ℚ → ℚ} (hex : ExpOk ex) {r s a : ℚ} {x : ℤ} (hs : 1 / 2 ^ 74 ≤ s) (hs2 : s ≤ 1002)
    (ha : -5 ≤ a) (ha0 : a ≤ 0)
    (hclose : |(a : ℝ) - -((x : ℝ) ^ 2) / (2 * ((r : ℝ) / 3) ^ 2)| ≤ 24 / 16777216) :
    Fmt.b64.lift (ex a / s) = .fin (Fmt.b64.rnd (ex a / s)) ∧
    Fmt.b32.lift (Fmt.b64.rnd (ex a / s)) = .fin (Fmt.b32.rnd (Fmt.b64.rnd (ex a / s))) ∧
    KerOk r s x (Fmt.b32.rnd (Fmt.b64.rnd (ex a / s))) := by
  have hs0 : 0 < s := lt_of_lt_of_le (by positivity) hs
  have hacc := hex.acc a ha ha0
  have haR : (-5 : ℝ) ≤ (a : ℝ) := by exact_mod_cast ha
  have haR0 : (a : ℝ) ≤ 0 := by exact_mod_cast ha0
  have hE1 : (1 : ℝ) / 149 ≤ Real.exp a := exp_neg_five.trans (Real.exp_le_exp.2 haR)
  have hE2 : Real.exp (a : ℝ) ≤ 1 := Real.exp_le_one_iff.2 haR0
  set E := Real.exp (a : ℝ) with hE
  rw [abs_le] at hacc
  have hv1R : (1 : ℝ) / 150 ≤ (ex a : ℝ) := by
    norm_num at hacc ⊢
    linarith [hacc.1]
  have hv2R : (ex a : ℝ) ≤ 2 := by
    norm_num at hacc ⊢
    linarith [hacc.2]
  have hv1 : (1 : ℚ) / 150 ≤ ex a := by
    have h : (((1 : ℚ) / 150 : ℚ) : ℝ) ≤ (ex a : ℝ) := by push_cast; exact hv1R
    exact Rat.cast_le.1 h
  have hv2 : ex a ≤ 2 := by exact_mod_cast hv2R
  set v := ex a with hv
  have hq1 : 1 / 262144 ≤ v / s := by
    rw [le_div_iff₀ hs0]
    linarith
  have hq2 : v / s ≤ 2 ^ 75 := by
    rw [div_le_iff₀ hs0]
    have : (2 : ℚ) ^ 75 * (1 / 2 ^ 74) ≤ 2 ^ 75 * s := mul_le_mul_of_nonneg_left hs (by positivity)
    have e : (2 : ℚ) ^ 75 * (1 / 2 ^ 74) = 2 := by norm_num
    linarith
  have hq0 : 0 < v / s := lt_of_lt_of_le (by norm_num) hq1
  have e18 : (1 : ℚ) / 262144 = 1 / 2 ^ 18 := by norm_num
  have e72 : Fmt.b64.rnd ((2 : ℚ) ^ 75) = 2 ^ 75 := by
    have := rnd_exact Fmt.b64 (m := 1) (e := 75) (by decide) (by norm_num [Fmt.b64])
    rw [Int.cast_one, one_mul] at this
    exact_mod_cast this
  have e72' : Fmt.b32.rnd ((2 : ℚ) ^ 75) = 2 ^ 75 := by
    have := rnd_exact Fmt.b32 (m := 1) (e := 75) (by decide) (by norm_num [Fmt.b32])
    rw [Int.cast_one, one_mul] at this
    exact_mod_cast this
  have hz1 : 1 / 262144 ≤ Fmt.b64.rnd (v / s) := by
    rw [e18] at hq1 ⊢
    exact le_rnd _ hq1 (rnd64_inv_pow (by norm_num))
  have hz2 : Fmt.b64.rnd (v / s) ≤ 2 ^ 75 := rnd_le _ hq2 e72
  obtain ⟨a1, a2⟩ := rnd64_rel' (x := v / s) (le_trans (by norm_num) hq1)
  set z := Fmt.b64.rnd (v / s) with hz
  have hz0 : 0 < z := lt_of_lt_of_le (by norm_num) hz1
  obtain ⟨b1, b2⟩ := rnd32_rel' (x := z) (le_trans (by norm_num) hz1)
  refine ⟨lift64 (k := 75) (by norm_num) (by rw [abs_of_pos hq0]; exact hq2),
    lift32 (k := 75) (by norm_num) (by rw [abs_of_pos hz0]; exact hz2), ?_, ?_, ?_, ?_⟩
  · rw [e18] at hz1 ⊢
    exact le_rnd _ hz1 (rnd32_inv_pow (by norm_num))
  · exact rnd_le _ hz2 e72'
  all_goals
    set K := Fmt.b32.rnd z
    obtain ⟨c1, c2⟩ := exp_close hclose
    rw [← hE] at c1 c2
    have hG : gauss r x = Real.exp (-((x : ℝ) ^ 2) / (2 * ((r : ℝ) / 3) ^ 2)) := rfl
    rw [← hG] at c1 c2
    have hG0 : 0 < gauss r x := Real.exp_pos _
    have hsR : (0 : ℝ) < (s : ℝ) := by exact_mod_cast hs0
    have hGs : 0 < gauss r x / (s : ℝ) := div_pos hG0 hsR
  · -- lower bound
    have h1 : v / s * (1 - 1 / 2 ^ 53) * (1 - 1 / 16777216) ≤ K :=
      le_trans (mul_le_mul_of_nonneg_right a1 (by norm_num)) b1
    have h2 : (v : ℝ) / s * (1 - 1 / 2 ^ 53) * (1 - 1 / 16777216) ≤ (K : ℝ) := by
      have h := (Rat.cast_le (K := ℝ)).2 h1
      push_cast at h
      exact h
    refine le_trans ?_ h2
    have h3 : E * (1 - 1 / 2 ^ 30) ≤ (v : ℝ) := by linarith [hacc.1]
    have h4 : gauss r x * (1 - 24 / 16777216) * (1 - 1 / 2 ^ 30) ≤ (v : ℝ) :=
      le_trans (mul_le_mul_of_nonneg_right c1 (by norm_num)) h3
    have h5 : gauss r x / s * ((1 - 24 / 16777216) * (1 - 1 / 2 ^ 30)) ≤ (v : ℝ) / s := by
      rw [div_mul_eq_mul_div]
      apply div_le_div_of_nonneg_right _ hsR.le
      linarith
    have h6 : gauss r x / s * ((1 - 24 / 16777216) * (1 - 1 / 2 ^ 30)) * ((1 - 1 / 2 ^ 53) * (1 - 1 / 16777216)) ≤
        (v : ℝ) / s * ((1 - 1 / 2 ^ 53) * (1 - 1 / 16777216)) :=
      mul_le_mul_of_nonneg_right h5 (by norm_num)
    rw [mul_assoc ((v : ℝ) / s)]
    refine le_trans ?_ h6
    rw [mul_assoc (gauss r x / s)]
    exact mul_le_mul_of_nonneg_left (by norm_num) hGs.le
  · have h1 : K ≤ v / s * (1 + 1 / 2 ^ 53) * (1 + 1 / 16777216) :=
      le_trans b2 (mul_le_mul_of_nonneg_right a2 (by norm_num))
    have h2 : (K : ℝ) ≤ (v : ℝ) / s * (1 + 1 / 2 ^ 53) * (1 + 1 / 16777216) := by
      have h := (Rat.cast_le (K := ℝ)).2 h1
      push_cast at h
      exact h
    refine le_trans h2 ?_
    have h3 : (v : ℝ) ≤ E * (1 + 1 / 2 ^ 30) := by linarith [hacc.2]
    have h4 : (v : ℝ) ≤ gauss r x * (1 + 24.01 / 16777216) * (1 + 1 / 2 ^ 30) :=
      le_trans h3 (mul_le_mul_of_nonneg_right c2 (by norm_num))
    have h5 : (v : ℝ) / s ≤ gauss r x / s * ((1 + 24.01 / 16777216) * (1 + 1 / 2 ^ 30)) := by
      rw [div_mul_eq_mul_div]
      apply div_le_div_of_nonneg_right _ hsR.le
      linarith
    have h6 : (v : ℝ) / s * ((1 + 1 / 2 ^ 53) * (1 + 1 / 16777216)) ≤
        gauss r x / s * ((1 + 24.01 / 16777216) * (1 + 1 / 2 ^ 30)) * ((1 + 1 / 2 ^ 53) * (1 + 1 / 16777216)) :=
      mul_le_mul_of_nonneg_right h5 (by norm_num)
    rw [mul_assoc ((v : ℝ) / s)]
    refine le_trans h6 ?_
    rw [mul_assoc (gauss r x / s)]
    exact mul_le_mul_of_nonneg_left (by norm_num) hGs.le

theorem div_total {f : Fmt} (a : Dbl) {t : ℚ} (ht : t ≠ 0) : ∃ v, Dbl.div f a (.fin t) = .ok v := by
  cases a <;> simp [Dbl.div, ht]

theorem toI32_fin {q : ℚ} (h : |q| ≤ 2147483647) : Dbl.toI32 (.fin q) = .ok (trunc q) := castI32_ok h

/-- `i - radius`, for all entries. -/
theorem sub_radius {r : ℚ} (h0 : 0 ≤ r) (h2 : r ≤ 1000) {j : ℕ} (hj : j ≤ 2001) :
    Dbl.sub Fmt.b64 (.fin (j : ℚ)) (.fin r) = .fin (Fmt.b64.rnd (j - r)) ∧
      |Fmt.b64.rnd ((j : ℚ) - r)| ≤ 3001 := by
  have hj' : (j : ℚ) ≤ 2001 := by exact_mod_cast hj
  have hj0 : (0 : ℚ) ≤ j := Nat.cast_nonneg j
  have hb : |(j : ℚ) - r| ≤ 3001 := by rw [abs_le]; constructor <;> linarith
  constructor
  · simp only [Dbl.sub, Dbl.neg, Dbl.add]
    rw [← sub_eq_add_neg]
    exact lift64 (k := 20) (by norm_num) (hb.trans (by norm_num))
  · have := rnd_abs_le Fmt.b64 (x := (j : ℚ) - r) (b := ((3001 : ℤ) : ℚ)) (by exact_mod_cast hb)
      (rnd64_int (by norm_num))
    exact_mod_cast this

/-- No kernel entry faults. -/
theorem blurWeight_total (ex : ℚ → ℚ) {r t s : ℚ} (h0 : 0 ≤ r) (h2 : r ≤ 1000) (ht : t ≠ 0) (hs : s ≠ 0)
    {j : ℕ} (hj : j ≤ 2001) : ∃ v, blurWeight ex (.fin r) (.fin t) (.fin s) j = .ok v := by
  obtain ⟨e1, hb⟩ := sub_radius h0 h2 hj
  set q := Fmt.b64.rnd ((j : ℚ) - r)
  have hx := trunc_abs_le (n := 3001) (by exact_mod_cast hb : |q| ≤ ((3001 : ℤ) : ℚ))
  set x := trunc q with hxd
  rw [abs_le] at hx
  have hxx0 : 0 ≤ x * x := mul_self_nonneg x
  have hxx : x * x ≤ 9006001 := by nlinarith
  unfold blurWeight
  rw [e1, toI32_fin (hb.trans (by norm_num)), ← hxd]
  simp only [ok_bind]
  rw [i32_ok (by constructor <;> omega)]
  simp only [ok_bind]
  rw [i32_ok (by constructor <;> omega)]
  simp only [ok_bind]
  obtain ⟨a, ha⟩ := div_total (f := Fmt.b32) (Dbl.conv Fmt.b32 (.fin ((-(x * x) : ℤ) : ℚ))) ht
  rw [ha]
  simp only [ok_bind]
  obtain ⟨v, hv⟩ := div_total (f := Fmt.b64) (expD ex a) hs
  rw [hv]
  exact ⟨_, rfl⟩

/-- The entries that are used. -/
theorem blurWeight_used {ex : ℚ → ℚ} (hex : ExpOk ex) {r t s : ℚ} (hrep : Fmt.b64.Rep r)
    (h0 : 0 ≤ r) (h2 : r ≤ 1000) (ht : 0 < t) (hs : 1 / 2 ^ 74 ≤ s) (hs2 : s ≤ 1002)
    (htb : 1 ≤ r → 2 * r ^ 2 / 9 * (1 - 4.2 / 16777216) ≤ t ∧ t ≤ 2 * r ^ 2 / 9 * (1 + 4.2 / 16777216))
    {j : ℕ} (hj : (j : ℤ) ≤ 2 * ⌊r⌋) :
    ∃ K, blurWeight ex (.fin r) (.fin t) (.fin s) j = .ok (.fin K) ∧
      KerOk r s (codeOffset r (j - ⌊r⌋)) K := by
  have hfl := Int.floor_le r
  have hfl2 : ⌊r⌋ ≤ 1000 := by
    have : (⌊r⌋ : ℚ) ≤ ((1000 : ℤ) : ℚ) := by push_cast; linarith
    exact_mod_cast this
  have hfl0 : 0 ≤ ⌊r⌋ := Int.floor_nonneg.2 h0
  have hs0 : 0 < s := lt_of_lt_of_le (by positivity) hs
  obtain ⟨e1, hb⟩ := sub_radius h0 h2 (j := j) (by omega)
  have hx : |codeOffset r (j - ⌊r⌋)| ≤ ⌊r⌋ := codeOffset_abs (by rw [abs_le]; omega)
  have e2 : trunc (Fmt.b64.rnd ((j : ℚ) - r)) = codeOffset r (j - ⌊r⌋) := by
    rw [sub_exact hrep h2 hj h0, trunc_offset]
  set x := codeOffset r (j - ⌊r⌋) with hxd
  have hx' := abs_le.1 hx
  have hxx0 : 0 ≤ x * x := mul_self_nonneg x
  have hxx : x * x ≤ 1000000 := by nlinarith
  have hxr : ((x * x : ℤ) : ℚ) ≤ r ^ 2 := by
    have h3 : (|x| : ℤ) * |x| ≤ ⌊r⌋ * ⌊r⌋ := mul_le_mul hx hx (abs_nonneg x) hfl0
    rw [abs_mul_abs_self] at h3
    have h4 : ((x * x : ℤ) : ℚ) ≤ ((⌊r⌋ * ⌊r⌋ : ℤ) : ℚ) := by exact_mod_cast h3
    refine h4.trans ?_
    push_cast
    have h5 : (0 : ℚ) ≤ (⌊r⌋ : ℚ) := by exact_mod_cast hfl0
    nlinarith
  have e3 : Dbl.conv Fmt.b32 (.fin ((-(x * x) : ℤ) : ℚ)) = .fin (-((x * x : ℤ) : ℚ)) := by
    simp only [Dbl.conv]
    rw [lift32 (k := 20) (by norm_num), rnd32_int]
    · push_cast; rfl
    · rw [abs_neg, abs_of_nonneg hxx0]; linarith
    · rw [← Int.cast_abs, abs_neg, abs_of_nonneg hxx0]
      have : ((x * x : ℤ) : ℚ) ≤ ((1000000 : ℤ) : ℚ) := by exact_mod_cast hxx
      refine this.trans (by norm_num)
  set X : ℚ := ((x * x : ℤ) : ℚ) with hX
  have hX0 : 0 ≤ X := by rw [hX]; exact_mod_cast hxx0
  -- the exponent
  have harg : Fmt.b32.lift (-X / t) = .fin (-Fmt.b32.rnd (X / t)) ∧
      |Fmt.b32.rnd (X / t) - X / (2 * (r / 3) ^ 2)| ≤ 24 / 16777216 ∧
      0 ≤ Fmt.b32.rnd (X / t) ∧ Fmt.b32.rnd (X / t) ≤ 5 := by
    by_cases hr1 : 1 ≤ r
    · obtain ⟨t1, t2⟩ := htb hr1
      have hX1 : X = 0 ∨ 1 ≤ X := by
        by_cases hxz : x * x = 0
        · left; rw [hX, hxz]; simp
        · right
          have : 1 ≤ x * x := by omega
          rw [hX]; exact_mod_cast this
      have hcl := arg_close hr1 hX0 hX1 hxr t1 t2 h2
      have hq0 : 0 ≤ X / t := div_nonneg hX0 ht.le
      have hD : 0 < 2 * (r / 3) ^ 2 := by positivity
      have hg : X / (2 * (r / 3) ^ 2) ≤ 4.5 := by
        rw [div_le_iff₀ hD]
        have : 2 * (r / 3) ^ 2 = 2 * r ^ 2 / 9 := by ring
        rw [this]
        norm_num
        linarith
      have hq8 : X / t ≤ 2 ^ 30 := by
        rw [div_le_iff₀ ht]
        have h3 : 1 / 9 ≤ t := by
          refine le_trans ?_ t1
          have : 1 ≤ r ^ 2 := by nlinarith
          norm_num
          nlinarith
        have h4 : X ≤ 1000000 := by rw [hX]; exact_mod_cast hxx
        norm_num
        nlinarith
      refine ⟨?_, hcl, rnd_nonneg _ hq0, ?_⟩
      · rw [neg_div, lift32 (k := 30) (by norm_num) (by rw [abs_neg, abs_of_nonneg hq0]; exact hq8),
          rnd_neg]
      · rw [abs_le] at hcl
        norm_num at *
        linarith [hcl.2]
    · have hf0 : ⌊r⌋ = 0 := by
        have : ⌊r⌋ < 1 := Int.floor_lt.2 (by push_cast; linarith)
        omega
      have hxz : x = 0 := by omega
      have hXz : X = 0 := by rw [hX, hxz]; simp
      rw [hXz]
      simp only [neg_zero, zero_div, rnd_zero, sub_zero, abs_zero]
      refine ⟨?_, by norm_num, le_refl _, by norm_num⟩
      rw [lift32 (k := 0) (by norm_num) (by simp), rnd_zero]
  obtain ⟨g1, g2, g3, g4⟩ := harg
  have hclose : |((-Fmt.b32.rnd (X / t) : ℚ) : ℝ) - -((x : ℝ) ^ 2) / (2 * ((r : ℝ) / 3) ^ 2)| ≤ 24 / 16777216 := by
    have h3 := (Rat.cast_le (K := ℝ)).2 g2
    rw [Rat.cast_abs] at h3
    have e : ((-Fmt.b32.rnd (X / t) : ℚ) : ℝ) - -((x : ℝ) ^ 2) / (2 * ((r : ℝ) / 3) ^ 2) =
        -(((Fmt.b32.rnd (X / t) - X / (2 * (r / 3) ^ 2) : ℚ)) : ℝ) := by
      rw [hX]
      push_cast
      ring
    rw [e, abs_neg]
    refine h3.trans ?_
    push_cast
    exact le_refl _
  obtain ⟨k1, k2, k3⟩ := entry_ok hex (a := -Fmt.b32.rnd (X / t)) hs hs2 (by linarith) (by linarith) hclose
  refine ⟨_, ?_, k3⟩
  unfold blurWeight
  rw [e1, toI32_fin (hb.trans (by norm_num)), e2]
  simp only [ok_bind]
  rw [i32_ok (by constructor <;> omega)]
  simp only [ok_bind]
  rw [i32_ok (by constructor <;> omega)]
  simp only [ok_bind]
  rw [e3, div_fin ht.ne', g1]
  simp only [ok_bind, expD]
  rw [div_fin hs0.ne', k1]
  simp only [ok_bind, Dbl.conv, k2]
  rfl

end FlatCV
