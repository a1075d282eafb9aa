/-
Otsu's threshold: the statistics stay finite, and the scan finds the first maximum.
-/
import Verif.Model.Otsu
import Verif.Spec.Otsu
import Verif.Lemmas.Stretch
import Verif.Lemmas.Draw

namespace FlatCV
open Model Spec

/-! ### Single precision bounds -/

theorem r32_pow (k : ℕ) : r32 ((2 : ℚ) ^ k) = 2 ^ k := by
  have := rnd_zpow Fmt.b32 (e := (k : ℤ)) (by
    have : Fmt.b32.emin = -149 := rfl
    omega)
  rw [zpow_natCast] at this
  exact this

theorem r32_inv {k : ℕ} (hk : k ≤ 149) : r32 (1 / (2 : ℚ) ^ k) = 1 / 2 ^ k := by
  have := rnd_zpow Fmt.b32 (e := -(k : ℤ)) (by
    have : Fmt.b32.emin = -149 := rfl
    omega)
  rw [zpow_neg, zpow_natCast, ← one_div] at this
  exact this

theorem r32_nat {n : ℕ} (hn : n ≤ 16777216) : r32 (n : ℚ) = n := by
  have := rnd32_int (m := (n : ℤ)) (by rw [Nat.abs_cast]; omega)
  exact_mod_cast this

theorem r32_abs {x : ℚ} {k : ℕ} (hx : |x| ≤ 2 ^ k) : |r32 x| ≤ 2 ^ k := rnd_abs_le _ hx (r32_pow k)

theorem f32_pow {x : ℚ} {k : ℕ} (hk : k ≤ 126) (hx : |x| ≤ 2 ^ k) : f32 x = .ok (r32 x) := by
  refine f32_ok (hx.trans ?_)
  refine (pow_le_pow_right₀ (by norm_num) hk).trans ?_
  norm_num

theorem f32div_pow {a b : ℚ} {k : ℕ} (hk : k ≤ 126) (hb : b ≠ 0) (hx : |a / b| ≤ 2 ^ k) :
    f32div a b = .ok (r32 (a / b)) := by
  refine f32div_ok hb (hx.trans ?_)
  refine (pow_le_pow_right₀ (by norm_num) hk).trans ?_
  norm_num

theorem r32_nonneg {x : ℚ} (hx : 0 ≤ x) : 0 ≤ r32 x := rnd_nonneg _ hx

/-- A sum of single precision numbers that is not 1 differs from 1 by at least `2^-24`. -/
theorem one_sub_r32 {y : ℚ} (h1 : r32 y ≠ 1) : 1 / 2 ^ 24 ≤ |1 - r32 y| := by
  obtain ⟨m, e, _, hm, hr⟩ := rnd_rep Fmt.b32 y
  rw [show Fmt.b32.p = 24 from rfl] at hm
  have hr' : r32 y = m * 2 ^ e := hr
  by_cases he : e < -24
  · have h2 : r32 y ≤ 1 / 2 := by
      rw [hr']
      have hm' : (m : ℚ) ≤ 2 ^ 24 := by exact_mod_cast (le_abs_self m).trans hm
      have he' : (2 : ℚ) ^ e ≤ 2 ^ (-25 : ℤ) := zpow_le_zpow_right₀ (by norm_num) (by omega)
      calc (m : ℚ) * 2 ^ e ≤ 2 ^ 24 * 2 ^ e := mul_le_mul_of_nonneg_right hm' (by positivity)
        _ ≤ 2 ^ 24 * 2 ^ (-25 : ℤ) := mul_le_mul_of_nonneg_left he' (by positivity)
        _ = 1 / 2 := by norm_num
    rw [abs_of_nonneg (by linarith)]
    norm_num
    linarith
  · obtain ⟨k, hk⟩ := Int.eq_ofNat_of_zero_le (show 0 ≤ e + 24 by omega)
    have hz : r32 y * 2 ^ 24 = ((m * 2 ^ k : ℤ) : ℚ) := by
      rw [hr', mul_assoc, ← zpow_natCast (2 : ℚ) 24, ← zpow_add₀ (by norm_num)]
      push_cast
      rw [hk, zpow_natCast]
    have hne : (16777216 - m * 2 ^ k : ℤ) ≠ 0 := by
      intro hc
      apply h1
      have : (m * 2 ^ k : ℤ) = 16777216 := by omega
      rw [this] at hz
      push_cast at hz
      linarith
    have h1' : (1 : ℤ) ≤ |16777216 - m * 2 ^ k| := Int.one_le_abs hne
    have h2 : (1 : ℚ) ≤ |16777216 - ((m * 2 ^ k : ℤ) : ℚ)| := by exact_mod_cast h1'
    rw [← hz] at h2
    have h3 : |16777216 - r32 y * 2 ^ 24| = |1 - r32 y| * 16777216 := by
      rw [← abs_of_pos (show (0 : ℚ) < 16777216 by norm_num), ← abs_mul,
        abs_of_pos (show (0 : ℚ) < 16777216 by norm_num)]
      congr 1
      ring
    rw [h3] at h2
    rw [div_le_iff₀ (by norm_num)]
    norm_num
    exact h2

/-! ### The running statistics -/

section
variable {n : Nat} {v : Nat → UInt8}

theorem cnt_r32 {c : Nat} (hc : c ≤ 2 ^ 32) : 0 ≤ r32 (c : ℚ) ∧ r32 (c : ℚ) ≤ 2 ^ 32 ∧
    f32 (c : ℚ) = .ok (r32 c) ∧ (1 ≤ c → 1 ≤ r32 (c : ℚ)) := by
  have h0 : (0 : ℚ) ≤ c := by positivity
  have h1 : (c : ℚ) ≤ 2 ^ 32 := by exact_mod_cast hc
  refine ⟨r32_nonneg h0, rnd_le _ h1 (r32_pow 32), f32_pow (k := 32) (by omega)
    (by rw [abs_of_nonneg h0]; exact h1), fun h => ?_⟩
  have := le_rnd Fmt.b32 (x := (c : ℚ)) (b := 1) (by exact_mod_cast h) (by
    have := r32_nat (n := 1) (by omega)
    exact_mod_cast this)
  exact this

theorem freq_bounds (hn0 : 0 < n) (hn : n ≤ 2 ^ 32) (l : Nat) :
    0 ≤ freq n v l ∧ freq n v l ≤ 1 ∧ (freq n v l = 0 ∨ 1 / 2 ^ 32 ≤ freq n v l) ∧
    f32div (r32 (countP n fun i => (v i).toNat == l)) (r32 n) = .ok (freq n v l) := by
  have hc := countP_le n fun i => (v i).toNat == l
  unfold freq
  generalize (countP n fun i => (v i).toNat == l) = c at hc
  obtain ⟨a0, a1, _, a3⟩ := cnt_r32 (c := c) (by omega)
  obtain ⟨b0, b1, _, b3⟩ := cnt_r32 (c := n) hn
  have b4 := b3 hn0
  have hle : r32 (c : ℚ) ≤ r32 n := rnd_mono _ (by exact_mod_cast hc)
  have hq0 : 0 ≤ r32 (c : ℚ) / r32 n := div_nonneg a0 b0
  have hq1 : r32 (c : ℚ) / r32 n ≤ 1 := by
    rw [div_le_one (by linarith)]
    exact hle
  have e1 : r32 1 = 1 := by
    have := r32_nat (n := 1) (by omega)
    exact_mod_cast this
  refine ⟨r32_nonneg hq0, rnd_le _ hq1 e1, ?_, ?_⟩
  · rcases Nat.eq_zero_or_pos c with rfl | hc0
    · left
      have : r32 ((0 : ℕ) : ℚ) = 0 := by rw [Nat.cast_zero]; exact rnd_zero _
      rw [this, zero_div]
      exact rnd_zero _
    · right
      refine le_rnd _ ?_ (r32_inv (k := 32) (by omega))
      have := a3 hc0
      rw [div_le_div_iff₀ (by positivity) (by linarith)]
      linarith
  · refine f32div_pow (k := 0) (by omega) (by linarith) ?_
    rw [abs_of_nonneg hq0, pow_zero]
    exact hq1

theorem sum32_rep (f : Nat → ℚ) (k : Nat) : r32 (sum32 f k) = sum32 f k := by
  cases k with
  | zero => exact rnd_zero _
  | succ k => exact rnd_idem _ _

theorem sum32_bounds {f : Nat → ℚ} {B : Nat} {K : Nat} (hf : ∀ i, i < K → 0 ≤ f i ∧ f i ≤ B)
    (hB : K * B ≤ 16777216) (k : Nat) (hk : k ≤ K) :
    0 ≤ sum32 f k ∧ sum32 f k ≤ (k * B : ℕ) := by
  induction k with
  | zero => exact ⟨le_rfl, by simp [sum32]⟩
  | succ k ih =>
    obtain ⟨i0, i1⟩ := ih (by omega)
    obtain ⟨h0, h1⟩ := hf k (by omega)
    have hle : sum32 f k + f k ≤ ((k + 1) * B : ℕ) := by
      push_cast at i1 ⊢
      linarith
    have hkB : (k + 1) * B ≤ 16777216 := le_trans (Nat.mul_le_mul_right B hk) hB
    exact ⟨r32_nonneg (by linarith), rnd_le _ hle (r32_nat hkB)⟩

theorem sum32_step {f : Nat → ℚ} {B : Nat} {K : Nat} (hf : ∀ i, i < K → 0 ≤ f i ∧ f i ≤ B)
    (hB : K * B ≤ 16777216) {k : Nat} (hk : k < K) :
    f32 (sum32 f k + f k) = .ok (sum32 f (k + 1)) := by
  obtain ⟨i0, i1⟩ := sum32_bounds hf hB k hk.le
  obtain ⟨h0, h1⟩ := hf k hk
  refine f32_pow (k := 24) (by omega) ?_
  have hle : sum32 f k + f k ≤ ((k + 1) * B : ℕ) := by
    push_cast at i1 ⊢
    linarith
  have hkB : (k + 1) * B ≤ 16777216 := le_trans (Nat.mul_le_mul_right B hk) hB
  have : (((k + 1) * B : ℕ) : ℚ) ≤ 16777216 := by exact_mod_cast hkB
  rw [abs_of_nonneg (by linarith)]
  linarith

theorem sum32_zero_or {f : Nat → ℚ} {K : Nat} {k0 : Nat} (hk0 : k0 ≤ 149)
    (hf : ∀ i, i < K → f i = 0 ∨ 1 / 2 ^ k0 ≤ f i) (k : Nat) (hk : k ≤ K) :
    sum32 f k = 0 ∨ 1 / 2 ^ k0 ≤ sum32 f k := by
  induction k with
  | zero => exact Or.inl rfl
  | succ k ih =>
    have hp : (0 : ℚ) < 1 / 2 ^ k0 := by positivity
    rcases ih (by omega) with h1 | h1 <;> rcases hf k (by omega) with h2 | h2
    · left
      show r32 _ = 0
      rw [h1, h2, add_zero]
      exact rnd_zero _
    all_goals
      right
      refine le_rnd _ ?_ (r32_inv hk0)
      linarith

theorem prod_bounds (hn0 : 0 < n) (hn : n ≤ 2 ^ 32) {i : Nat} (hi : i < 256) :
    0 ≤ r32 (i * freq n v i) ∧ r32 (i * freq n v i) ≤ (255 : ℕ) ∧
    f32 (i * freq n v i) = .ok (r32 (i * freq n v i)) := by
  obtain ⟨h0, h1, _⟩ := freq_bounds (v := v) hn0 hn i
  have hi' : (i : ℚ) ≤ 255 := by exact_mod_cast (by omega : i ≤ 255)
  have hi0 : (0 : ℚ) ≤ i := by positivity
  have h2 : (i : ℚ) * freq n v i ≤ 255 := by nlinarith
  have h3 : 0 ≤ (i : ℚ) * freq n v i := mul_nonneg hi0 h0
  have e := r32_nat (n := 255) (by omega)
  refine ⟨r32_nonneg h3, rnd_le _ (by push_cast; exact h2) e, f32_pow (k := 8) (by omega) ?_⟩
  rw [abs_of_nonneg h3]
  linarith

theorem weight_bounds (hn0 : 0 < n) (hn : n ≤ 2 ^ 32) {k : Nat} (hk : k ≤ 256) :
    0 ≤ sum32 (freq n v) k ∧ sum32 (freq n v) k ≤ 256 ∧
    (sum32 (freq n v) k = 0 ∨ 1 / 2 ^ 32 ≤ sum32 (freq n v) k) := by
  have hf : ∀ i, i < 256 → 0 ≤ freq n v i ∧ freq n v i ≤ (1 : ℕ) := fun i _ => by
    have := freq_bounds (v := v) hn0 hn i
    exact ⟨this.1, by push_cast; exact this.2.1⟩
  obtain ⟨h0, h1⟩ := sum32_bounds hf (by omega) k hk
  refine ⟨h0, h1.trans ?_, sum32_zero_or (by omega)
    (fun i (_ : i < 256) => (freq_bounds (v := v) hn0 hn i).2.2.1) k hk⟩
  exact_mod_cast (by omega : k * 1 ≤ 256)

theorem moment_bounds (hn0 : 0 < n) (hn : n ≤ 2 ^ 32) {k : Nat} (hk : k ≤ 256) :
    0 ≤ sum32 (fun i => r32 (i * freq n v i)) k ∧ sum32 (fun i => r32 (i * freq n v i)) k ≤ 65280 := by
  obtain ⟨h0, h1⟩ := sum32_bounds (K := 256) (B := 255) (f := fun i => r32 (i * freq n v i))
    (fun i hi => ⟨(prod_bounds hn0 hn hi).1, (prod_bounds hn0 hn hi).2.1⟩) (by omega) k hk
  refine ⟨h0, h1.trans ?_⟩
  exact_mod_cast (by omega : k * 255 ≤ 65280)

/-- The normalised histogram. -/
def freqs (n : Nat) (v : Nat → UInt8) : Cells ℚ := (List.range 256).map fun l => some (freq n v l)

theorem freqs_get {i : Nat} (hi : i < 256) : rd (freqs n v) i = .ok (freq n v i) := by
  refine rd_ok ?_
  unfold freqs
  rw [List.getElem?_map, List.getElem?_range hi]
  rfl

theorem normHist_ok (hn0 : 0 < n) (hn : n ≤ 2 ^ 32) : normHist (histOf n v) n = .ok (freqs n v) := by
  unfold normHist
  apply Ok.eq
  refine (forN_ok (fun i (s : Cells ℚ) => s.length = 256 ∧ ∀ k, k < i → s[k]? = some (some (freq n v k)))
    ⟨List.length_replicate, by intro k hk; omega⟩ ?_).mono ?_
  · rintro i hi s ⟨hl, hI⟩
    rw [rd_ok (histOf_get hi), ok_bind]
    have hc := countP_le n fun k => (v k).toNat == i
    obtain ⟨_, _, _, e⟩ := freq_bounds (v := v) hn0 hn i
    rw [(cnt_r32 (by omega)).2.2.1, ok_bind, (cnt_r32 hn).2.2.1, ok_bind, e, ok_bind, wr_ok (by omega)]
    refine Ok.pure' ⟨by simpa using hl, ?_⟩
    intro k hk
    by_cases h : i = k
    · subst h
      rw [List.getElem?_set_self (by omega)]
    · rw [List.getElem?_set_ne h]
      exact hI k (by omega)
  · rintro s ⟨hl, hI⟩
    apply List.ext_getElem?
    intro k
    by_cases hk : k < 256
    · rw [hI k hk]
      unfold freqs
      rw [List.getElem?_map, List.getElem?_range hk]
      rfl
    · rw [List.getElem?_eq_none (by omega), List.getElem?_eq_none (by
        unfold freqs; rw [List.length_map, List.length_range]; omega)]

theorem addMean_ok (hn0 : 0 < n) (hn : n ≤ 2 ^ 32) {i : Nat} (hi : i < 256) :
    addMean (freqs n v) i (sum32 (fun i => r32 (i * freq n v i)) i)
      = .ok (sum32 (fun i => r32 (i * freq n v i)) (i + 1)) := by
  unfold addMean
  have ef : f32 (i : ℚ) = .ok (i : ℚ) := by
    rw [(cnt_r32 (by omega)).2.2.1, r32_nat (by omega)]
  rw [freqs_get hi, ok_bind, ef, ok_bind, (prod_bounds hn0 hn hi).2.2, ok_bind]
  exact sum32_step (K := 256) (B := 255) (f := fun i => r32 (i * freq n v i))
    (fun i hi => ⟨(prod_bounds hn0 hn hi).1, (prod_bounds hn0 hn hi).2.1⟩) (by omega) hi

theorem globalMean_ok (hn0 : 0 < n) (hn : n ≤ 2 ^ 32) :
    globalMean (freqs n v) = .ok (moment n v 255) := by
  unfold globalMean
  apply Ok.eq
  refine forN_ok (fun i g => g = sum32 (fun i => r32 (i * freq n v i)) i) rfl ?_
  rintro i hi s rfl
  rw [addMean_ok hn0 hn hi]
  exact Ok.pure' rfl

theorem classVariance_ok {g s m y : ℚ} (hs : s = r32 y) (h0 : 1 / 2 ^ 32 ≤ s) (h1 : s ≠ 1)
    (hs256 : s ≤ 256) (hg0 : 0 ≤ g) (hg : g ≤ 65280) (hm0 : 0 ≤ m) (hm : m ≤ 65280) :
    classVariance g s m = .ok (
      r32 (r32 (r32 (s * r32 (1 - s)) * r32 (r32 (m / s) - r32 (r32 (g - m) / r32 (1 - s)))) *
        r32 (r32 (m / s) - r32 (r32 (g - m) / r32 (1 - s))))) := by
  have hspos : 0 < s := lt_of_lt_of_le (by positivity) h0
  have hone : 1 / 2 ^ 24 ≤ |1 - s| := by
    rw [hs] at hspos h1 ⊢
    exact one_sub_r32 h1
  have b1 : |m / s| ≤ 2 ^ 48 := by
    rw [abs_of_nonneg (div_nonneg hm0 hspos.le), div_le_iff₀ hspos]
    have : (2 : ℚ) ^ 48 * (1 / 2 ^ 32) ≤ 2 ^ 48 * s := mul_le_mul_of_nonneg_left h0 (by positivity)
    norm_num at this ⊢
    linarith
  have b2 : |g - m| ≤ 2 ^ 16 := by rw [abs_le]; constructor <;> linarith
  have b3 : |1 - s| ≤ 2 ^ 8 := by rw [abs_le]; constructor <;> linarith
  have b4 : 1 / 2 ^ 24 ≤ |r32 (1 - s)| := by
    show 1 / 2 ^ 24 ≤ |Fmt.b32.rnd (1 - s)|
    rw [abs_rnd]
    exact le_rnd _ hone (r32_inv (k := 24) (by omega))
  have b4' : (0 : ℚ) < |r32 (1 - s)| := lt_of_lt_of_le (by positivity) b4
  have ne4 : r32 (1 - s) ≠ 0 := abs_pos.1 b4'
  have b5 : |r32 (g - m) / r32 (1 - s)| ≤ 2 ^ 40 := by
    rw [abs_div, div_le_iff₀ b4']
    have h2 := r32_abs b2
    have h3 : (2 : ℚ) ^ 40 * (1 / 2 ^ 24) ≤ 2 ^ 40 * |r32 (1 - s)| :=
      mul_le_mul_of_nonneg_left b4 (by positivity)
    norm_num at h2 h3 ⊢
    linarith
  have b6 : |s * r32 (1 - s)| ≤ 2 ^ 16 := by
    rw [abs_mul, abs_of_pos hspos]
    have h2 := r32_abs b3
    have := mul_le_mul hs256 h2 (abs_nonneg _) (by norm_num)
    norm_num at this ⊢
    linarith
  have b7 : |r32 (m / s) - r32 (r32 (g - m) / r32 (1 - s))| ≤ 2 ^ 49 := by
    refine (abs_sub _ _).trans ?_
    have h2 := r32_abs b1
    have h3 := r32_abs b5
    norm_num at h2 h3 ⊢
    linarith
  have b8 := r32_abs b7
  have b9 := r32_abs b6
  have b10 : |r32 (s * r32 (1 - s)) * r32 (r32 (m / s) - r32 (r32 (g - m) / r32 (1 - s)))| ≤ 2 ^ 65 := by
    rw [abs_mul]
    have := mul_le_mul b9 b8 (abs_nonneg _) (by positivity)
    rw [← pow_add] at this
    exact this
  have b11 := r32_abs b10
  have b12 : |r32 (r32 (s * r32 (1 - s)) * r32 (r32 (m / s) - r32 (r32 (g - m) / r32 (1 - s)))) *
      r32 (r32 (m / s) - r32 (r32 (g - m) / r32 (1 - s)))| ≤ 2 ^ 114 := by
    rw [abs_mul]
    have := mul_le_mul b11 b8 (abs_nonneg _) (by positivity)
    rw [← pow_add] at this
    exact this
  unfold classVariance
  rw [f32div_pow (by omega) hspos.ne' b1, ok_bind, f32_pow (by omega) b2, ok_bind,
    f32_pow (by omega) b3, ok_bind, f32div_pow (by omega) ne4 b5, ok_bind, f32_pow (by omega) b6, ok_bind,
    f32_pow (by omega) b7, ok_bind, f32_pow (by omega) b10, ok_bind, f32_pow (by omega) b12]

/-- What holds of the best level after the levels below `k`. -/
def BestBelow (n : Nat) (v : Nat → UInt8) (k : Nat) (best : ℚ) (t : Nat) : Prop :=
  (t = 0 ∧ best = 0 ∧ ∀ l, l < k → Usable n v l → variance n v l ≤ 0) ∨
  (t < k ∧ Usable n v t ∧ best = variance n v t ∧ 0 < best ∧
    (∀ l, l < k → Usable n v l → variance n v l ≤ best) ∧
    ∀ l, l < t → Usable n v l → variance n v l < best)

theorem otsuStep_ok (hn0 : 0 < n) (hn : n ≤ 2 ^ 32) {i : Nat} (hi : i < 256) {b : ℚ} {t : Nat}
    (hb : BestBelow n v i b t) :
    ∃ b' t', otsuStep (freqs n v) (moment n v 255) i
        ⟨sum32 (freq n v) i, sum32 (fun i => r32 (i * freq n v i)) i, b, t⟩
      = .ok ⟨sum32 (freq n v) (i + 1), sum32 (fun i => r32 (i * freq n v i)) (i + 1), b', t'⟩ ∧
      BestBelow n v (i + 1) b' t' := by
  have hf : ∀ i, i < 256 → 0 ≤ freq n v i ∧ freq n v i ≤ (1 : ℕ) := fun i _ => by
    have := freq_bounds (v := v) hn0 hn i
    exact ⟨this.1, by push_cast; exact this.2.1⟩
  have estep := sum32_step hf (by omega) hi
  obtain ⟨w0, w1, w2⟩ := weight_bounds (v := v) hn0 hn (k := i + 1) (by omega)
  have skip : ¬ Usable n v i → BestBelow n v (i + 1) b t := by
    intro hu
    rcases hb with ⟨h1, h2, h3⟩ | ⟨h1, h2, h3, h4, h5, h6⟩
    · refine Or.inl ⟨h1, h2, fun l hl hul => ?_⟩
      by_cases e : l = i
      · subst e; exact absurd hul hu
      · exact h3 l (by omega) hul
    · refine Or.inr ⟨by omega, h2, h3, h4, fun l hl hul => ?_, h6⟩
      by_cases e : l = i
      · subst e; exact absurd hul hu
      · exact h5 l (by omega) hul
  unfold otsuStep
  rw [freqs_get hi, ok_bind, estep, ok_bind, addMean_ok hn0 hn hi, ok_bind]
  by_cases hz : sum32 (freq n v) (i + 1) = 0 ∨ sum32 (freq n v) (i + 1) = 1
  · rw [if_pos hz]
    refine ⟨b, t, rfl, skip ?_⟩
    rintro ⟨h1, h2⟩
    rcases hz with h | h
    · exact h1 h
    · exact h2 h
  · rw [if_neg hz]
    have hu : Usable n v i := ⟨fun h => hz (Or.inl h), fun h => hz (Or.inr h)⟩
    obtain ⟨m0, m1⟩ := moment_bounds (v := v) hn0 hn (k := i + 1) (by omega)
    obtain ⟨g0, g1⟩ := moment_bounds (v := v) hn0 hn (k := 256) (by omega)
    have ev : classVariance (moment n v 255) (sum32 (freq n v) (i + 1))
        (sum32 (fun i => r32 (i * freq n v i)) (i + 1)) = .ok (variance n v i) :=
      classVariance_ok (sum32_rep _ _).symm (w2.resolve_left hu.1) hu.2 w1 g0 g1 m0 m1
    rw [ev, ok_bind]
    by_cases hgt : variance n v i > b
    · rw [if_pos hgt]
      refine ⟨variance n v i, i, rfl, Or.inr ⟨by omega, hu, rfl, ?_, ?_, ?_⟩⟩
      · rcases hb with ⟨_, h2, _⟩ | ⟨_, _, _, h4, _⟩ <;> linarith
      · intro l hl hul
        by_cases e : l = i
        · subst e; exact le_rfl
        · rcases hb with ⟨_, h2, h3⟩ | ⟨_, _, _, _, h5, _⟩
          · have := h3 l (by omega) hul; linarith
          · have := h5 l (by omega) hul; linarith
      · intro l hl hul
        rcases hb with ⟨_, h2, h3⟩ | ⟨_, _, _, _, h5, _⟩
        · have := h3 l hl hul; linarith
        · have := h5 l hl hul; linarith
    · rw [if_neg hgt]
      refine ⟨b, t, rfl, ?_⟩
      rcases hb with ⟨h1, h2, h3⟩ | ⟨h1, h2, h3, h4, h5, h6⟩
      · refine Or.inl ⟨h1, h2, fun l hl hul => ?_⟩
        by_cases e : l = i
        · subst e; rw [← h2]; exact not_lt.1 hgt
        · exact h3 l (by omega) hul
      · refine Or.inr ⟨by omega, h2, h3, h4, fun l hl hul => ?_, h6⟩
        by_cases e : l = i
        · subst e; exact not_lt.1 hgt
        · exact h5 l (by omega) hul

theorem otsuLevel_ok (hn0 : 0 < n) (hn : n ≤ 2 ^ 32) :
    ∃ t, otsuLevel (histOf n v) n = .ok t ∧ t < 256 ∧ FirstMax n v (Usable n v) t := by
  unfold otsuLevel
  rw [normHist_ok hn0 hn, ok_bind, globalMean_ok hn0 hn, ok_bind]
  have key : Ok (forN 256 (⟨0, 0, 0, 0⟩ : OtsuState) fun i s => otsuStep (freqs n v) (moment n v 255) i s)
      (fun s => BestBelow n v 256 s.best s.level) := by
    refine (forN_ok (fun i s => ∃ b t, s = ⟨sum32 (freq n v) i, sum32 (fun i => r32 (i * freq n v i)) i, b, t⟩ ∧
      BestBelow n v i b t) ⟨0, 0, rfl, Or.inl ⟨rfl, rfl, by intro l hl; omega⟩⟩ ?_).mono ?_
    · rintro i hi s ⟨b, t, rfl, hb⟩
      obtain ⟨b', t', e, hb'⟩ := otsuStep_ok hn0 hn hi hb
      rw [e]
      exact Ok.pure' ⟨b', t', rfl, hb'⟩
    · rintro s ⟨b, t, rfl, hb⟩
      exact hb
  obtain ⟨s, e, hb⟩ := key
  rw [e, ok_bind]
  refine ⟨s.level, rfl, ?_⟩
  rcases hb with ⟨h1, h2, h3⟩ | ⟨h1, h2, h3, h4, h5, h6⟩
  · exact ⟨by omega, Or.inl ⟨h1, h3⟩⟩
  · rw [h3] at h4 h5 h6
    exact ⟨h1, Or.inr ⟨h1, h2, h4, h5, h6⟩⟩

end

end FlatCV
