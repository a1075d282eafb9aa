/-
Distances between pixels, computed in `double`.
-/
import Verif.Core.Sqrt
import Verif.Lemmas.Peaks
import Verif.Lemmas.Draw
import Mathlib.Tactic.IntervalCases
namespace FlatCV
open Model Spec

theorem scale_sub {a j : ℕ} (hj : j ≤ 1100) (ha : 1 ≤ a) :
    ∃ R : ℕ, ((a : ℚ) - 1 / 2 ^ j) * 2 ^ 1100 = R := by
  obtain ⟨i, hi⟩ : ∃ i, 1100 = j + i := ⟨1100 - j, by omega⟩
  rw [hi]
  have h1 : 1 ≤ a * 2 ^ j := Nat.one_le_iff_ne_zero.2 (by positivity)
  refine ⟨(a * 2 ^ j - 1) * 2 ^ i, ?_⟩
  rw [pow_add]
  push_cast [Nat.cast_sub h1]
  field_simp

theorem rne_tie_even (M : ℤ) (h : M % 2 = 0) : rne ((M : ℚ) - 1 / 2) = M := by
  have hf : ⌊(M : ℚ) - 1 / 2⌋ = M - 1 := by
    rw [Int.floor_eq_iff]
    push_cast
    constructor <;> linarith
  unfold rne
  rw [hf]
  push_cast
  rw [if_neg (by linarith), if_neg (by linarith), if_neg (by omega)]
  ring

theorem sqrt_sq_aux {a : ℕ} {j : ℕ} (hj : j ≤ 1100) (ha : 1 ≤ a)
    (h : (a : ℚ) * a - (1 / 2 ^ j * 2 * a - 1 / 2 ^ j * (1 / 2 ^ j)) ≤ Fmt.b64.rnd ((a : ℚ) * a))
    (hr : Fmt.b64.rnd ((a : ℚ) - 1 / 2 ^ j) = a) :
    (a : ℚ) ≤ Fmt.b64.rnd (sqrtMid (Fmt.b64.rnd ((a : ℚ) * a))) := by
  have h1 : (1 : ℚ) / 2 ^ j ≤ 1 := by
    rw [div_le_one (by positivity)]
    exact one_le_pow₀ (by norm_num)
  have h2 : (1 : ℚ) ≤ a := by exact_mod_cast ha
  have := sqrtMid_ge' (s := Fmt.b64.rnd ((a : ℚ) * a)) (scale_sub hj ha) (by linarith) (by
    refine le_trans (le_of_eq ?_) h
    ring)
  have := rnd_mono Fmt.b64 this
  rwa [hr] at this

/-- `sqrt(a * a)` is not below `a`. -/
theorem sqrt_sq_ge {a : ℕ} (h1 : 2 ^ 25 ≤ a) (h2 : a < 2 ^ 31) :
    (a : ℚ) ≤ Fmt.b64.rnd (sqrtMid (Fmt.b64.rnd ((a : ℚ) * a))) := by
  have key : ∀ k : ℕ, 25 ≤ k → k ≤ 30 → 2 ^ k ≤ a → a < 2 ^ (k + 1) →
      (a : ℚ) ≤ Fmt.b64.rnd (sqrtMid (Fmt.b64.rnd ((a : ℚ) * a))) := by
    intro k hk1 hk2 ha1 ha2
    have err := rnd64_err ((a : ℚ) * a)
    rw [abs_of_nonneg (a := (a : ℚ) * a) (by positivity)] at err
    have err' := neg_le_of_abs_le err
    have eps : (1 : ℚ) / 2 ^ 1075 ≤ 1 / 2 ^ 60 :=
      one_div_pow_le_one_div_pow_of_le (by norm_num) (by norm_num)
    generalize (1 : ℚ) / 2 ^ 1075 = ε at *
    by_cases he : a = 2 ^ k
    · have hrep : Fmt.b64.Rep ((a : ℚ)) := by
        have := rep64_int (z := (a : ℤ)) (by rw [Nat.abs_cast]; omega)
        exact_mod_cast this
      have hr2 : Fmt.b64.rnd ((a : ℚ) * a) = a * a := by
        rw [he]
        push_cast
        rw [← pow_add, ← zpow_natCast]
        refine rnd_zpow _ ?_
        have emin : Fmt.b64.emin = -1074 := rfl
        rw [emin]; omega
      rw [hr2]
      exact le_f64sqrt hrep (by positivity) le_rfl
    · refine sqrt_sq_aux (j := 53 - k) (by omega) (by omega) ?_ ?_
      · have q2 : (a : ℚ) + 1 ≤ 2 ^ (k + 1) := by exact_mod_cast ha2
        have q1 : (33554432 : ℚ) ≤ a := by exact_mod_cast h1
        have prod : (a : ℚ) ≤ a * (2 ^ (k + 1) - a) := by nlinarith
        clear err ha1 ha2 he q2 h1 h2
        interval_cases k <;> norm_num at prod err' eps ⊢ <;> nlinarith
      · have q1 : (2 : ℚ) ^ k + 1 ≤ a := by exact_mod_cast (by omega : 2 ^ k + 1 ≤ a)
        have q2 : (a : ℚ) + 1 ≤ 2 ^ (k + 1) := by exact_mod_cast ha2
        have := rnd64_at (x := (a : ℚ) - 1 / 2 ^ (53 - k)) (k : ℤ) ((a * 2 ^ (52 - k) : ℕ) : ℤ) ?_ ?_ (by omega) ?_
        · rw [this]
          interval_cases k <;> norm_num <;> ring
        · interval_cases k <;> norm_num <;> linarith
        · interval_cases k <;> norm_num at q2 ⊢ <;> linarith
        · have e : ((a : ℚ) - 1 / 2 ^ (53 - k)) / 2 ^ ((k : ℤ) - 52)
              = (((a * 2 ^ (52 - k) : ℕ) : ℤ) : ℚ) - 1 / 2 := by
            interval_cases k <;> norm_num <;> ring
          rw [e]
          refine rne_tie_even _ ?_
          interval_cases k <;> push_cast <;> omega
  have : ∃ k, 25 ≤ k ∧ k ≤ 30 ∧ 2 ^ k ≤ a ∧ a < 2 ^ (k + 1) := by
    refine ⟨Nat.log 2 a, ?_, ?_, Nat.pow_log_le_self 2 (by omega), Nat.lt_pow_succ_log_self (by norm_num) a⟩
    · exact (Nat.le_log_iff_pow_le (by norm_num) (by omega)).2 h1
    · have := Nat.log_lt_of_lt_pow (by omega) h2
      omega
  obtain ⟨k, a1, a2, a3, a4⟩ := this
  exact key k a1 a2 a3 a4
/-- The computed squared distance. -/
def sumSq (a b : ℕ) : ℚ := Fmt.b64.rnd (Fmt.b64.rnd ((a : ℚ) * a) + Fmt.b64.rnd ((b : ℚ) * b))

theorem sumSq_comm (a b : ℕ) : sumSq a b = sumSq b a := by unfold sumSq; rw [add_comm]

theorem rnd64_nat {n : ℕ} (hn : n ≤ 9007199254740992) : Fmt.b64.rnd (n : ℚ) = n := by
  have := rnd64_int (m := (n : ℤ)) (by rw [Nat.abs_cast]; omega)
  exact_mod_cast this

theorem sumSq_large {a b m : ℕ} (ha : 2 ^ 25 ≤ a) (ha2 : a < 2 ^ 31) (hb : b ≤ 128) :
    Fmt.b64.rnd (sqrtMid (sumSq a b)) < m ↔ a * a + b * b < m * m := by
  have hbb : b * b ≤ 16384 := Nat.mul_le_mul hb hb
  have eb : Fmt.b64.rnd ((b : ℚ) * b) = b * b := by
    have := rnd64_nat (n := b * b) (by omega)
    push_cast at this
    exact this
  have hq1 : (33554432 : ℚ) ≤ a := by exact_mod_cast ha
  have hq2 : (a : ℚ) ≤ 2147483648 := by exact_mod_cast ha2.le
  have hq3 : (b : ℚ) * b ≤ 16384 := by exact_mod_cast hbb
  have hb0 : (0 : ℚ) ≤ (b : ℚ) * b := by positivity
  constructor
  · intro h
    by_contra hc
    have hma : m ≤ a := by
      by_contra hma
      have : (a + 1) * (a + 1) ≤ m * m := Nat.mul_le_mul (by omega) (by omega)
      nlinarith
    have h1 := sqrt_sq_ge ha ha2
    have h2 : Fmt.b64.rnd ((a : ℚ) * a) ≤ sumSq a b := by
      unfold sumSq
      rw [eb]
      refine le_rnd _ (by linarith) (rnd_idem _ _)
    have h0 : 0 ≤ Fmt.b64.rnd ((a : ℚ) * a) := rnd_nonneg _ (by positivity)
    have h3 := f64sqrt_mono h2 h0
    have h4 : (m : ℚ) ≤ a := by exact_mod_cast hma
    linarith
  · intro h
    have hma : a + 1 ≤ m := by
      by_contra hma
      have : m * m ≤ a * a := Nat.mul_le_mul (by omega) (by omega)
      omega
    have h4 : (a : ℚ) + 1 ≤ m := by exact_mod_cast hma
    have e1 := rnd64_err ((a : ℚ) * a)
    rw [abs_of_nonneg (a := (a : ℚ) * a) (by positivity)] at e1
    have e1' := le_of_abs_le e1
    have hx0 : 0 ≤ Fmt.b64.rnd ((a : ℚ) * a) := rnd_nonneg _ (by positivity)
    have e2 := rnd64_err (Fmt.b64.rnd ((a : ℚ) * a) + Fmt.b64.rnd ((b : ℚ) * b))
    rw [eb, abs_of_nonneg (a := Fmt.b64.rnd ((a : ℚ) * a) + (b : ℚ) * b) (by linarith)] at e2
    have e2' := le_of_abs_le e2
    have eps : (1 : ℚ) / 2 ^ 1075 ≤ 1 / 2 ^ 60 :=
      one_div_pow_le_one_div_pow_of_le (by norm_num) (by norm_num)
    have hs0 : 0 ≤ sumSq a b := rnd_nonneg _ (by rw [eb]; linarith)
    have hs : sumSq a b ≤ ((a : ℚ) + 1 / 2) * (a + 1 / 2) := by
      unfold sumSq
      rw [eb]
      have haa : (a : ℚ) * a ≤ 2147483648 * 2147483648 := mul_le_mul hq2 hq2 (by linarith) (by norm_num)
      clear e1 e2 h
      generalize Fmt.b64.rnd ((a : ℚ) * a) = X at *
      generalize (1 : ℚ) / 2 ^ 1075 = ε at *
      generalize Fmt.b64.rnd (X + (b : ℚ) * b) = Y at *
      norm_num at e1' e2' eps
      nlinarith
    have hr : Fmt.b64.Rep ((a : ℚ) + 1 / 2) := by
      refine ⟨⟨(a : ℤ) * 2 + 1, -1, by decide, ?_, ?_⟩, ?_⟩
      · rw [abs_of_nonneg (by omega)]
        show (a : ℤ) * 2 + 1 ≤ 2 ^ 53
        omega
      · push_cast
        rw [show (2 : ℚ) ^ (-1 : ℤ) = 1 / 2 by norm_num]
        ring
      · rw [abs_of_nonneg (by linarith)]
        exact lt_max64 (by linarith)
    have := f64sqrt_le hr (by linarith) hs0 hs
    linarith

theorem sumSq_small {a b m : ℕ} (h : a * a + b * b < 2 ^ 52) (hm : m < 2 ^ 32) :
    Fmt.b64.rnd (sqrtMid (sumSq a b)) < m ↔ a * a + b * b < m * m := by
  have e1 := rnd64_nat (n := a * a) (by omega)
  have e2 := rnd64_nat (n := b * b) (by omega)
  have e3 := rnd64_nat (n := a * a + b * b) (by omega)
  have : sumSq a b = ((a * a + b * b : ℕ) : ℚ) := by
    unfold sumSq
    push_cast at e1 e2 e3 ⊢
    rw [e1, e2, e3]
  rw [this]
  exact f64sqrt_lt_iff h hm

/-- Comparing the computed distance with an integer is exact for pixels of an image with at most
`2^32` pixels. -/
theorem sumSq_lt_iff {a b m w h : ℕ} (ha : a + 2 ≤ w) (hb : b + 2 ≤ h) (hwh : w * h ≤ 4294967296)
    (hm : m < 2 ^ 32) :
    Fmt.b64.rnd (sqrtMid (sumSq a b)) < m ↔ a * a + b * b < m * m := by
  by_cases hs : a * a + b * b < 2 ^ 52
  · exact sumSq_small hs hm
  · have hab : (a + 2) * (b + 2) ≤ 4294967296 := le_trans (Nat.mul_le_mul ha hb) hwh
    have key : ∀ x y : ℕ, y ≤ x → (x + 2) * (y + 2) ≤ 4294967296 → ¬ x * x + y * y < 2 ^ 52 →
        2 ^ 25 ≤ x ∧ x < 2 ^ 31 ∧ y ≤ 128 := by
      intro x y hyx hxy hn
      have h1 : 2 ^ 25 ≤ x := by
        by_contra hc
        have hxx : x * x ≤ 33554432 * 33554432 := Nat.mul_le_mul (by omega) (by omega)
        have hyy : y * y ≤ x * x := Nat.mul_le_mul hyx hyx
        omega
      refine ⟨h1, ?_, ?_⟩
      · by_contra hc
        have : 2147483650 * 2 ≤ (x + 2) * (y + 2) := Nat.mul_le_mul (by omega) (by omega)
        omega
      · by_contra hc
        have : 33554434 * 130 ≤ (x + 2) * (y + 2) := Nat.mul_le_mul (by omega) (by omega)
        omega
    rcases Nat.le_total b a with hba | hba
    · obtain ⟨k1, k2, k3⟩ := key a b hba hab hs
      exact sumSq_large k1 k2 k3
    · obtain ⟨k1, k2, k3⟩ := key b a hba (by rw [Nat.mul_comm]; exact hab) (by rw [Nat.add_comm]; exact hs)
      rw [sumSq_comm, Nat.add_comm (a * a)]
      exact sumSq_large k1 k2 k3

theorem coord_diff {a b n : ℕ} (ha : a + 1 < n) (hb : b + 1 < n) (ha0 : 0 < a) (hb0 : 0 < b) :
    ((a : ℤ) - b).natAbs + 2 ≤ n := by omega

theorem sq_natAbs (a b : ℕ) : ((a : ℚ) - b) * (a - b) = (((a : ℤ) - b).natAbs : ℚ) * ((a : ℤ) - b).natAbs := by
  have e : ((a : ℚ) - b) = (((a : ℤ) - b : ℤ) : ℚ) := by push_cast; rfl
  rw [e]
  generalize (a : ℤ) - b = z
  rw [← Int.cast_natCast z.natAbs, ← Int.cast_mul, ← Int.cast_mul, Int.natAbs_mul_self']

theorem euclid_ok {w h m : ℕ} {p q : ℕ × ℕ} (hwh : w * h ≤ 4294967296) (hm : m < 2 ^ 32)
    (hw : w < 4294967296) (hh : h < 4294967296)
    (p1 : 0 < p.1) (p2 : p.1 + 1 < w) (p3 : 0 < p.2) (p4 : p.2 + 1 < h)
    (q1 : 0 < q.1) (q2 : q.1 + 1 < w) (q3 : 0 < q.2) (q4 : q.2 + 1 < h) :
    ∃ D, euclidean_distance (toPt p) (toPt q) = .ok D ∧ (D < (m : ℚ) ↔ dist2 p q < m * m) := by
  refine ⟨Fmt.b64.rnd (sqrtMid (sumSq ((p.1 : ℤ) - q.1).natAbs ((p.2 : ℤ) - q.2).natAbs)), ?_, ?_⟩
  · have sub : ∀ {a b n : ℕ}, a < n → b < n → n < 4294967296 → f64 ((a : ℚ) - b) = .ok ((a : ℚ) - b) := by
      intro a b n ha hb hn
      have e := rnd64_int (m := (a : ℤ) - b) (by rw [abs_le]; omega)
      push_cast at e
      rw [f64_ok, e]
      have h1 : (a : ℚ) < 4294967296 := by exact_mod_cast (by omega : a < 4294967296)
      have h2 : (b : ℚ) < 4294967296 := by exact_mod_cast (by omega : b < 4294967296)
      have h3 : (0 : ℚ) ≤ a := by positivity
      have h4 : (0 : ℚ) ≤ b := by positivity
      rw [abs_le]
      constructor <;> linarith
    have bnd : ∀ {a b n : ℕ}, a < n → b < n → n < 4294967296 →
        (((a : ℤ) - b).natAbs : ℚ) * ((a : ℤ) - b).natAbs ≤ 10 ^ 20 := by
      intro a b n ha hb hn
      have h1 : (((a : ℤ) - b).natAbs : ℚ) ≤ 4294967296 := by
        exact_mod_cast (by omega : ((a : ℤ) - b).natAbs ≤ 4294967296)
      have := mul_le_mul h1 h1 (by positivity) (by norm_num)
      linarith
    have bx := bnd (a := p.1) (b := q.1) (n := w) (by omega) (by omega) hw
    have bY := bnd (a := p.2) (b := q.2) (n := h) (by omega) (by omega) hh
    have sx := sq_natAbs p.1 q.1
    have sy := sq_natAbs p.2 q.2
    unfold euclidean_distance toPt
    simp only
    rw [sub (n := w) (by omega) (by omega) hw, ok_bind, sub (n := h) (by omega) (by omega) hh, ok_bind,
      sx, sy]
    have e0 := rnd_nonneg Fmt.b64 (x := (((p.1 : ℤ) - q.1).natAbs : ℚ) * ((p.1 : ℤ) - q.1).natAbs) (by positivity)
    have e1 := rnd_nonneg Fmt.b64 (x := (((p.2 : ℤ) - q.2).natAbs : ℚ) * ((p.2 : ℤ) - q.2).natAbs) (by positivity)
    have big : ∀ {x : ℚ}, 0 ≤ x → x ≤ 10 ^ 20 → |x| ≤ 10 ^ 60 := by
      intro x h0 h1
      rw [abs_of_nonneg h0]
      linarith
    have err : ∀ {x : ℚ}, 0 ≤ x → x ≤ 10 ^ 20 → Fmt.b64.rnd x ≤ 10 ^ 21 := by
      intro x h0 h1
      have := le_of_abs_le (rnd64_err x)
      rw [abs_of_nonneg h0] at this
      have eps : (1 : ℚ) / 2 ^ 1075 ≤ 1 / 2 ^ 60 :=
        one_div_pow_le_one_div_pow_of_le (by norm_num) (by norm_num)
      generalize (1 : ℚ) / 2 ^ 1075 = ε at *
      norm_num at *
      linarith
    rw [f64_ok (big (by positivity) bx), ok_bind, f64_ok (big (by positivity) bY), ok_bind, f64_ok, ok_bind, f64sqrt_ok]
    · rfl
    · exact rnd_nonneg _ (by linarith)
    · have e2 := err (x := (((p.1 : ℤ) - q.1).natAbs : ℚ) * ((p.1 : ℤ) - q.1).natAbs) (by positivity) bx
      have e3 := err (x := (((p.2 : ℤ) - q.2).natAbs : ℚ) * ((p.2 : ℤ) - q.2).natAbs) (by positivity) bY
      rw [abs_of_nonneg (by linarith)]
      linarith
  · rw [sumSq_lt_iff (coord_diff p2 q2 p1 q1) (coord_diff p4 q4 p3 q3) hwh hm]
    unfold dist2
    rw [pow_two, pow_two]

theorem castU32_nat {n : ℕ} (hn : n < 4294967296) : castU32 (n : ℚ) = .ok n := by
  unfold castU32
  have e : trunc (n : ℚ) = n := by
    have := trunc_int (n : ℤ)
    exact_mod_cast this
  rw [castInt_ok (by rw [e]; omega) (by rw [e]; omega), ok_bind, e]
  rfl

theorem peakValue_ok {w h : ℕ} {d v : List UInt8} {p : ℕ × ℕ} (hv : View w h d v) (hw : w < 4294967296) (hh : h < 4294967296) (hx : p.1 < w) (hy : p.2 < h) :
    peakValue w d (toPt p) = .ok (resp w v p) := by
  have e1 := hv p.1 p.2 0 hx hy (by omega)
  rw [Nat.add_zero, u32_eq (u32_lt _)] at e1
  unfold peakValue toPt
  simp only
  rw [castU32_nat (by omega), ok_bind, castU32_nat (by omega), ok_bind]
  exact e1

end FlatCV
