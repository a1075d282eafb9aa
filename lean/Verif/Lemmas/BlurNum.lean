/-
Error analysis of the float sums of the Gaussian blur.
-/
import Verif.Core.Ieee
import Mathlib.Tactic.Linarith
import Mathlib.Tactic.NormNum
import Mathlib.Tactic.FieldSimp
import Mathlib.Tactic.GCongr

namespace FlatCV

/-- Upper limit of the weights. -/
def wBig : ℚ := 2 ^ 90

theorem wBig_pos : 0 < wBig := by unfold wBig; positivity

/-- `W` approximates the exact sum `A` of `j` terms. -/
structure Appr (j : ℕ) (A W : ℚ) : Prop where
  lo : A * (1 - (2 * j + 1) / 16777216) ≤ W
  hi : W ≤ A * (1 + (2 * j + 1) / 16777216)
  sml : A = 0 ∨ 1 / 262144 ≤ A
  big : A ≤ j * wBig

theorem Appr.nonneg {j : ℕ} {A W : ℚ} (h : Appr j A W) : 0 ≤ A := by
  rcases h.sml with h | h <;> linarith

theorem Appr.zero : Appr 0 0 0 := ⟨by norm_num, by norm_num, .inl rfl, by simp⟩

theorem Appr.skip {j : ℕ} {A W : ℚ} (h : Appr j A W) : Appr (j + 1) A W := by
  have h0 := h.nonneg
  refine ⟨?_, ?_, h.sml, ?_⟩
  · refine le_trans ?_ h.lo
    apply mul_le_mul_of_nonneg_left _ h0
    push_cast
    linarith
  · refine le_trans h.hi ?_
    apply mul_le_mul_of_nonneg_left _ h0
    push_cast
    linarith
  · push_cast
    have := h.big
    have := wBig_pos
    nlinarith

theorem Appr.w_nonneg {j : ℕ} {A W : ℚ} (h : Appr j A W) (hj : j ≤ 2001) : 0 ≤ W := by
  refine le_trans (mul_nonneg h.nonneg ?_) h.lo
  have : (j : ℚ) ≤ 2001 := by exact_mod_cast hj
  linarith

theorem Appr.w_le {j : ℕ} {A W : ℚ} (h : Appr j A W) (hj : j ≤ 2001) : W ≤ 4002 * wBig := by
  have hj' : (j : ℚ) ≤ 2001 := by exact_mod_cast hj
  have h0 := h.nonneg
  have hb := h.big
  have hp := wBig_pos
  have h1 : A ≤ 2001 * wBig := hb.trans (mul_le_mul_of_nonneg_right hj' hp.le)
  have h2 : W ≤ A * 2 := h.hi.trans (mul_le_mul_of_nonneg_left (by linarith) h0)
  linarith

theorem Appr.step {j : ℕ} {A W t t' : ℚ} (h : Appr j A W) (hj : j < 2001)
    (ht : t = 0 ∨ 1 / 262144 ≤ t) (htb : t ≤ wBig)
    (hlo : t * (1 - 1 / 16777216) ≤ t') (hhi : t' ≤ t * (1 + 1 / 16777216)) :
    Appr (j + 1) (A + t) (Fmt.b32.rnd (W + t')) ∧ |W + t'| ≤ 2 ^ 110 := by
  have h0 := h.nonneg
  have hw := h.w_nonneg (by omega)
  have hwl := h.w_le (by omega)
  have ht0 : 0 ≤ t := by rcases ht with h | h <;> linarith
  have ht'0 : 0 ≤ t' := le_trans (mul_nonneg ht0 (by norm_num)) hlo
  have hj' : (j : ℚ) ≤ 2000 := by
    have : j ≤ 2000 := by omega
    exact_mod_cast this
  have hj0 : (0 : ℚ) ≤ j := Nat.cast_nonneg j
  have hsml : A + t = 0 ∨ 1 / 262144 ≤ A + t := by
    rcases h.sml with h1 | h1
    · rcases ht with h2 | h2
      · left; rw [h1, h2]; norm_num
      · right; linarith
    · right; linarith
  have hrange : W + t' = 0 ∨ 1 / 2 ^ 126 ≤ W + t' := by
    have hk : (1 : ℚ) / 2 ^ 126 ≤ 1 / 1048576 := by norm_num
    rcases h.sml with h1 | h1
    · rcases ht with h2 | h2
      · left
        have e1 : W = 0 := by
          have := h.lo; have := h.hi
          rw [h1] at *
          simp only [zero_mul] at *
          linarith
        have e2 : t' = 0 := by rw [h2] at hlo hhi; simp only [zero_mul] at *; linarith
        rw [e1, e2]; norm_num
      · right
        have : t * (1 / 2) ≤ t' := le_trans (mul_le_mul_of_nonneg_left (by norm_num) ht0) hlo
        linarith
    · right
      have : A * (1 / 2) ≤ W := by
        refine le_trans (mul_le_mul_of_nonneg_left ?_ h0) h.lo
        linarith
      linarith
  obtain ⟨r1, r2⟩ := rnd32_rel hrange
  have e24 : (2 : ℚ) ^ 24 = 16777216 := by norm_num
  rw [e24] at r1 r2
  have hlow := h.lo
  have hhigh := h.hi
  have c1 : A * (1 - (2 * j + 1) / 16777216) + t * (1 - (2 * j + 1) / 16777216) ≤ W + t' := by
    have : t * (1 - (2 * j + 1) / 16777216) ≤ t * (1 - 1 / 16777216) :=
      mul_le_mul_of_nonneg_left (by linarith) ht0
    linarith
  have c2 : W + t' ≤ A * (1 + (2 * j + 1) / 16777216) + t * (1 + (2 * j + 1) / 16777216) := by
    have : t * (1 + 1 / 16777216) ≤ t * (1 + (2 * j + 1) / 16777216) :=
      mul_le_mul_of_nonneg_left (by linarith) ht0
    linarith
  have hS : 0 ≤ A + t := by linarith
  refine ⟨⟨?_, ?_, hsml, ?_⟩, ?_⟩
  · have d1 : (A + t) * (1 - (2 * j + 1) / 16777216) * (1 - 1 / 16777216) ≤ Fmt.b32.rnd (W + t') := by
      refine le_trans (mul_le_mul_of_nonneg_right ?_ (by norm_num)) r1
      linarith
    refine le_trans ?_ d1
    rw [mul_assoc]
    apply mul_le_mul_of_nonneg_left _ hS
    push_cast
    nlinarith
  · have d1 : Fmt.b32.rnd (W + t') ≤ (A + t) * (1 + (2 * j + 1) / 16777216) * (1 + 1 / 16777216) := by
      refine le_trans r2 (mul_le_mul_of_nonneg_right ?_ (by norm_num))
      linarith
    refine le_trans d1 ?_
    rw [mul_assoc]
    apply mul_le_mul_of_nonneg_left _ hS
    push_cast
    nlinarith
  · push_cast
    have := h.big
    linarith
  · rw [abs_of_nonneg (by linarith)]
    have : t' ≤ t * 2 := hhi.trans (mul_le_mul_of_nonneg_left (by norm_num) ht0)
    have e : (2 : ℚ) ^ 110 = 1048576 * wBig := by unfold wBig; norm_num
    rw [e]
    have := wBig_pos
    linarith

/-- The quotient of two approximate sums, for up to 2001 taps of byte values. -/
theorem Appr.quot {n : ℕ} {A B R W : ℚ} (hn : n ≤ 2001) (ha : Appr n A R) (hb : Appr n B W)
    (hB : 0 < B) (hm : A ≤ 255 * B) :
    W ≠ 0 ∧ |R / W| ≤ 2 ^ 110 ∧ A / B - 1 / 8 + 1 / 1000 ≤ Fmt.b32.rnd (R / W) ∧
      Fmt.b32.rnd (R / W) ≤ A / B + 1 / 8 - 1 / 1000 ∧ 0 ≤ Fmt.b32.rnd (R / W) := by
  have hn' : (n : ℚ) ≤ 2001 := by exact_mod_cast hn
  have hA := ha.nonneg
  have hR := ha.w_nonneg hn
  set c : ℚ := 4003 / 16777216 with hc
  have hWlo : B * (1 - c) ≤ W := by
    refine le_trans (mul_le_mul_of_nonneg_left ?_ hB.le) hb.lo
    rw [hc]; linarith
  have hWhi : W ≤ B * (1 + c) := by
    refine le_trans hb.hi (mul_le_mul_of_nonneg_left ?_ hB.le)
    rw [hc]; linarith
  have hRlo : A * (1 - c) ≤ R := by
    refine le_trans (mul_le_mul_of_nonneg_left ?_ hA) ha.lo
    rw [hc]; linarith
  have hRhi : R ≤ A * (1 + c) := by
    refine le_trans ha.hi (mul_le_mul_of_nonneg_left ?_ hA)
    rw [hc]; linarith
  have hc1 : 0 < 1 - c := by rw [hc]; norm_num
  have hW : 0 < W := lt_of_lt_of_le (mul_pos hB hc1) hWlo
  set m := A / B with hmdef
  have hm0 : 0 ≤ m := div_nonneg hA hB.le
  have hm1 : m ≤ 255 := (div_le_iff₀ hB).2 hm
  have hmA : A = m * B := by rw [hmdef]; field_simp
  -- quotient bounds
  have q1 : R / W ≤ m * (1 + 2001 * 2 / 8388608 + 1 / 1000000) := by
    rw [div_le_iff₀ hW]
    have h1 : m * (1 + 2001 * 2 / 8388608 + 1 / 1000000) * (B * (1 - c)) ≤ m * (1 + 2001 * 2 / 8388608 + 1 / 1000000) * W :=
      mul_le_mul_of_nonneg_left hWlo (mul_nonneg hm0 (by norm_num))
    refine le_trans (hRhi.trans ?_) h1
    rw [hmA]
    have h2 : 0 ≤ m * B := mul_nonneg hm0 hB.le
    have h3 : (1 + c) ≤ (1 + 2001 * 2 / 8388608 + 1 / 1000000) * (1 - c) := by rw [hc]; norm_num
    calc m * B * (1 + c) ≤ m * B * ((1 + 2001 * 2 / 8388608 + 1 / 1000000) * (1 - c)) :=
          mul_le_mul_of_nonneg_left h3 h2
      _ = _ := by ring
  have q2 : m * (1 - 2001 * 2 / 8388608 - 1 / 1000000) ≤ R / W := by
    rw [le_div_iff₀ hW]
    have h1 : m * (1 - 2001 * 2 / 8388608 - 1 / 1000000) * W ≤ m * (1 - 2001 * 2 / 8388608 - 1 / 1000000) * (B * (1 + c)) :=
      mul_le_mul_of_nonneg_left hWhi (mul_nonneg hm0 (by norm_num))
    refine le_trans h1 (le_trans ?_ hRlo)
    rw [hmA]
    have h2 : 0 ≤ m * B := mul_nonneg hm0 hB.le
    have h3 : (1 - 2001 * 2 / 8388608 - 1 / 1000000) * (1 + c) ≤ (1 - c) := by rw [hc]; norm_num
    calc m * (1 - 2001 * 2 / 8388608 - 1 / 1000000) * (B * (1 + c))
        = m * B * ((1 - 2001 * 2 / 8388608 - 1 / 1000000) * (1 + c)) := by ring
      _ ≤ _ := mul_le_mul_of_nonneg_left h3 h2
  have hq0 : 0 ≤ R / W := div_nonneg hR hW.le
  have q3 : R / W ≤ m + 0.12193 := by
    refine q1.trans ?_
    nlinarith
  have q4 : m - 0.12193 ≤ R / W := by
    refine le_trans ?_ q2
    nlinarith
  have herr := rnd32_err (x := R / W)
  rw [abs_of_nonneg hq0] at herr
  have hround : |Fmt.b32.rnd (R / W) - R / W| ≤ 0.00005 := by
    refine herr.trans ?_
    have : R / W ≤ 256 := by linarith
    norm_num
    linarith
  rw [abs_le] at hround
  refine ⟨hW.ne', ?_, ?_, ?_, rnd_nonneg _ hq0⟩
  · rw [abs_of_nonneg hq0]
    have : R / W ≤ 256 := by linarith
    refine this.trans (by norm_num)
  · norm_num at *
    linarith [hround.1]
  · norm_num at *
    linarith [hround.2]

end FlatCV
