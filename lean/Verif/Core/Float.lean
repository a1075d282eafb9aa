/-
Semantics of C used by the model, part 4: binary floating point.

Finite floating-point values are rationals; every operation is the exact operation followed by
`Fmt.rnd`, rounding to nearest, ties to even, with subnormals (IEEE 754; `FLT_EVAL_METHOD = 0`, no
contraction of `a*b+c`, default rounding mode).  An operation that overflows to infinity or
divides by zero is the fault `fpSpecial`: C defines it, the model does not follow it.  The two
zeros are one value; no modelled code distinguishes them.
-/
import Verif.Core.Num
import Mathlib.Data.Int.Log
import Mathlib.Data.Rat.Floor
import Mathlib.Algebra.Order.Field.Power
import Mathlib.Tactic.Linarith
import Mathlib.Tactic.Ring
import Mathlib.Tactic.Positivity
import Mathlib.Tactic.FieldSimp
import Mathlib.Tactic.NormNum
import Mathlib.Algebra.Order.Ring.Abs

namespace FlatCV

/-- Round to the nearest integer, ties to even. -/
def rne (q : ℚ) : ℤ :=
  if q - ⌊q⌋ < 1 / 2 then ⌊q⌋
  else if 1 / 2 < q - ⌊q⌋ then ⌊q⌋ + 1
  else if ⌊q⌋ % 2 = 0 then ⌊q⌋ else ⌊q⌋ + 1

/-- A binary floating-point format: precision, exponent of the smallest positive value, largest
exponent. -/
structure Fmt where
  p : ℕ
  emin : ℤ
  emax : ℤ
  p_pos : 1 ≤ p
  hem : emin + p ≤ emax

/-- `float`. -/
def Fmt.b32 : Fmt := ⟨24, -149, 127, by decide, by decide⟩
/-- `double`. -/
def Fmt.b64 : Fmt := ⟨53, -1074, 1023, by decide, by decide⟩

/-- Exponent of the last place of `x` in the format. -/
def Fmt.ulpExp (f : Fmt) (x : ℚ) : ℤ := max (Int.log 2 |x| - (f.p - 1)) f.emin

/-- Rounding to the format, with unbounded range. -/
def Fmt.rnd (f : Fmt) (x : ℚ) : ℚ := rne (x / 2 ^ f.ulpExp x) * 2 ^ f.ulpExp x

/-- Result of a floating-point operation with exact value `x`. -/
def Fmt.fl (f : Fmt) (x : ℚ) : CM ℚ :=
  if |f.rnd x| < 2 ^ (f.emax + 1) then .ok (f.rnd x) else .error .fpSpecial

/-- Floating-point division. -/
def Fmt.div (f : Fmt) (a b : ℚ) : CM ℚ :=
  if b = 0 then .error .fpSpecial else f.fl (a / b)

/-- `float` operation with exact result `x`. -/
abbrev f32 (x : ℚ) : CM ℚ := Fmt.b32.fl x
/-- `double` operation with exact result `x`. -/
abbrev f64 (x : ℚ) : CM ℚ := Fmt.b64.fl x
/-- `float` division. -/
abbrev f32div (a b : ℚ) : CM ℚ := Fmt.b32.div a b
/-- `double` division. -/
abbrev f64div (a b : ℚ) : CM ℚ := Fmt.b64.div a b

/-- Truncation towards zero. -/
def trunc (q : ℚ) : ℤ := if 0 ≤ q then ⌊q⌋ else ⌈q⌉

/-- Conversion of a floating-point value to an integer type with range `lo … hi`: undefined
unless the truncated value fits. -/
def castInt (lo hi : ℤ) (q : ℚ) : CM ℤ :=
  if lo ≤ trunc q ∧ trunc q ≤ hi then .ok (trunc q) else .error .castRange

/-- `(int32_t)q`. -/
def castI32 (q : ℚ) : CM ℤ := castInt (-2147483648) 2147483647 q

/-- `(uint32_t)q`. -/
def castU32 (q : ℚ) : CM ℕ := do
  let z ← castInt 0 4294967295 q
  pure z.toNat

/-- `(uint8_t)q`. -/
def castU8 (q : ℚ) : CM UInt8 := do
  let z ← castInt 0 255 q
  pure (u8OfInt z)

/-- A `double` argument of an API function. -/
inductive Dbl where
  | nan
  | inf (neg : Bool)
  | fin (q : ℚ)
  deriving DecidableEq

/-- `x` is a finite value of the format. -/
def Fmt.Rep (f : Fmt) (x : ℚ) : Prop :=
  (∃ (m : ℤ) (e : ℤ), f.emin ≤ e ∧ |m| ≤ 2 ^ f.p ∧ x = m * 2 ^ e) ∧ |x| < 2 ^ (f.emax + 1)

/-! ### Rounding to integers -/

theorem rne_floor_or (q : ℚ) : rne q = ⌊q⌋ ∨ rne q = ⌊q⌋ + 1 := by
  unfold rne; split_ifs <;> simp

theorem rne_int (z : ℤ) : rne z = z := by
  simp [rne]

theorem rne_err (q : ℚ) : |(rne q : ℚ) - q| ≤ 1 / 2 := by
  have h1 := Int.floor_le q
  have h2 := Int.lt_floor_add_one q
  unfold rne
  split_ifs <;> rw [abs_le] <;> push_cast <;> constructor <;> linarith

theorem rne_mono {a b : ℚ} (h : a ≤ b) : rne a ≤ rne b := by
  rcases lt_or_eq_of_le (Int.floor_mono h) with hlt | heq
  · have h1 := rne_floor_or a
    have h2 := rne_floor_or b
    omega
  · unfold rne
    rw [← heq]
    split_ifs <;> first | omega | (exfalso; linarith)

theorem rne_neg (q : ℚ) : rne (-q) = - rne q := by
  by_cases hz : (⌊q⌋ : ℚ) = q
  · have : rne (-q) = -⌊q⌋ := by
      rw [← hz]
      have : (-(⌊q⌋ : ℚ)) = ((-⌊q⌋ : ℤ) : ℚ) := by push_cast; rfl
      rw [this, Int.floor_intCast, rne_int]
    rw [this, ← hz, Int.floor_intCast, rne_int]
  · have h1 := Int.floor_le q
    have h2 := Int.lt_floor_add_one q
    have h1' : (⌊q⌋ : ℚ) < q := lt_of_le_of_ne h1 hz
    have hf : ⌊-q⌋ = -⌊q⌋ - 1 := by
      rw [Int.floor_eq_iff]
      push_cast
      constructor <;> linarith
    unfold rne
    rw [hf]
    push_cast
    split_ifs <;> first | omega | (exfalso; linarith)

/-! ### Rounding to a format -/

theorem two_zpow_pos (e : ℤ) : (0 : ℚ) < 2 ^ e := zpow_pos (by norm_num) e

theorem rnd_zero (f : Fmt) : f.rnd 0 = 0 := by
  have : rne 0 = 0 := by have := rne_int 0; simpa using this
  simp [Fmt.rnd, this]

theorem rnd_neg (f : Fmt) (x : ℚ) : f.rnd (-x) = - f.rnd x := by
  have : f.ulpExp (-x) = f.ulpExp x := by simp [Fmt.ulpExp]
  unfold Fmt.rnd
  rw [this, neg_div, rne_neg]
  push_cast
  ring

theorem abs_rnd (f : Fmt) (x : ℚ) : |f.rnd x| = f.rnd |x| := by
  have key : ∀ y : ℚ, 0 ≤ y → 0 ≤ f.rnd y := by
    intro y hy
    unfold Fmt.rnd
    have : 0 ≤ rne (y / 2 ^ f.ulpExp y) := by
      have h0 : rne 0 = 0 := by have := rne_int 0; simpa using this
      rw [← h0]
      exact rne_mono (div_nonneg hy (two_zpow_pos _).le)
    exact mul_nonneg (by exact_mod_cast this) (two_zpow_pos _).le
  rcases le_total 0 x with h | h
  · rw [abs_of_nonneg h, abs_of_nonneg (key x h)]
  · rw [abs_of_nonpos h, rnd_neg, abs_of_nonpos]
    have := key (-x) (by linarith)
    rw [rnd_neg] at this
    linarith

theorem rnd_nonneg (f : Fmt) {x : ℚ} (h : 0 ≤ x) : 0 ≤ f.rnd x := by
  have := abs_rnd f x
  rw [abs_of_nonneg h] at this
  rw [← this]
  exact abs_nonneg _

theorem ulpExp_ge (f : Fmt) (x : ℚ) : f.emin ≤ f.ulpExp x := le_max_right _ _

/-- Numbers with few enough bits are values of the format. -/
theorem rnd_exact (f : Fmt) {m e : ℤ} (he : f.emin ≤ e) (hm : |m| ≤ 2 ^ f.p) :
    f.rnd ((m : ℚ) * 2 ^ e) = (m : ℚ) * 2 ^ e := by
  -- enough: the exponent used divides the number
  suffices h : ∃ k : ℤ, (m : ℚ) * 2 ^ e = k * 2 ^ f.ulpExp ((m : ℚ) * 2 ^ e) by
    obtain ⟨k, hk⟩ := h
    unfold Fmt.rnd
    have h0 := (two_zpow_pos (f.ulpExp ((m : ℚ) * 2 ^ e))).ne'
    have : (m : ℚ) * 2 ^ e / 2 ^ f.ulpExp ((m : ℚ) * 2 ^ e) = k := by
      rw [div_eq_iff h0]; exact hk
    rw [this, rne_int]
    exact hk.symm
  by_cases hm0 : m = 0
  · subst hm0; exact ⟨0, by simp⟩
  by_cases hle : f.ulpExp ((m : ℚ) * 2 ^ e) ≤ e
  · refine ⟨m * 2 ^ (e - f.ulpExp ((m : ℚ) * 2 ^ e)).toNat, ?_⟩
    set u := f.ulpExp ((m : ℚ) * 2 ^ e) with hu
    push_cast
    rw [← zpow_natCast, Int.toNat_of_nonneg (by omega), mul_assoc, ← zpow_add₀ (by norm_num)]
    congr 2
    omega
  · push Not at hle
    -- then the exponent comes from the size, and |m| = 2^p
    have hmpos : 0 < |(m : ℚ) * 2 ^ e| := by
      rw [abs_pos]; exact mul_ne_zero (by exact_mod_cast hm0) (two_zpow_pos e).ne'
    have habs : |(m : ℚ) * 2 ^ e| = (|m| : ℤ) * 2 ^ e := by
      rw [abs_mul, abs_of_pos (two_zpow_pos e)]; push_cast; rfl
    have hlog : f.ulpExp ((m : ℚ) * 2 ^ e) = Int.log 2 |(m : ℚ) * 2 ^ e| - (f.p - 1) := by
      unfold Fmt.ulpExp at hle ⊢
      rcases max_choice (Int.log 2 |(m : ℚ) * 2 ^ e| - ((f.p : ℤ) - 1)) f.emin with h | h
      · exact h
      · rw [h] at hle; omega
    have h1 : ((2 : ℕ) : ℚ) ^ (Int.log 2 |(m : ℚ) * 2 ^ e|) ≤ |(m : ℚ) * 2 ^ e| :=
      Int.zpow_log_le_self (by norm_num) hmpos
    set L := Int.log 2 |(m : ℚ) * 2 ^ e| with hL
    have hLe : e + f.p ≤ L := by rw [hlog] at hle; omega
    have h2 : |(m : ℚ) * 2 ^ e| ≤ 2 ^ (e + f.p) := by
      rw [habs, zpow_add₀ (by norm_num), mul_comm (2 ^ e : ℚ)]
      refine mul_le_mul_of_nonneg_right ?_ (two_zpow_pos e).le
      rw [zpow_natCast]
      exact_mod_cast hm
    have h3 : ((2 : ℚ)) ^ (e + (f.p : ℤ)) ≤ 2 ^ L := zpow_le_zpow_right₀ (by norm_num) hLe
    have h4 : |(m : ℚ) * 2 ^ e| = 2 ^ L := le_antisymm (h2.trans h3) (by exact_mod_cast h1)
    have h5 : L = e + f.p := by
      have : (2 : ℚ) ^ L ≤ 2 ^ (e + (f.p : ℤ)) := by rw [← h4]; exact h2
      have := (zpow_le_zpow_iff_right₀ (a := (2 : ℚ)) (by norm_num)).1 this
      omega
    have h6 : f.ulpExp ((m : ℚ) * 2 ^ e) = e + 1 := by rw [hlog, h5]; omega
    rw [h6]
    have hp := f.p_pos
    have h7 : (|(m : ℚ)|) = 2 ^ (f.p : ℤ) := by
      have : |(m : ℚ)| * 2 ^ e = 2 ^ (f.p : ℤ) * 2 ^ e := by
        rw [← zpow_add₀ (by norm_num), add_comm, ← h5, ← h4, abs_mul,
          abs_of_pos (two_zpow_pos e)]
      exact mul_right_cancel₀ (two_zpow_pos e).ne' this
    have h8 : (2 : ℚ) ^ (f.p : ℤ) = 2 ^ (f.p - 1) * 2 := by
      rw [zpow_natCast, ← pow_succ]; congr 1; omega
    rcases abs_choice (m : ℚ) with hs | hs
    · refine ⟨2 ^ (f.p - 1), ?_⟩
      rw [← hs, h7, h8]
      push_cast
      rw [zpow_add₀ (by norm_num)]
      ring
    · refine ⟨-2 ^ (f.p - 1), ?_⟩
      have : (m : ℚ) = - |(m : ℚ)| := by rw [hs]; ring
      rw [this, h7, h8]
      push_cast
      rw [zpow_add₀ (by norm_num)]
      ring

theorem rnd_zpow (f : Fmt) {e : ℤ} (he : f.emin ≤ e) : f.rnd (2 ^ e) = 2 ^ e := by
  have := rnd_exact f (m := 1) he (by
    rw [abs_one]; exact one_le_pow₀ (by norm_num))
  simpa using this

theorem rnd_int (f : Fmt) (he : f.emin ≤ 0) {m : ℤ} (hm : |m| ≤ 2 ^ f.p) :
    f.rnd (m : ℚ) = m := by
  have := rnd_exact f (m := m) he hm
  simpa using this

/-- Rounding a positive number stays within its binade. -/
theorem rnd_le_of_lt_zpow (f : Fmt) {x : ℚ} {k : ℤ} (hx : 0 ≤ x) (hxk : x ≤ 2 ^ k)
    (hk : f.emin ≤ k) : f.rnd x ≤ 2 ^ k := by
  by_cases hx0 : x = 0
  · subst hx0; rw [rnd_zero]; exact (two_zpow_pos k).le
  have hxp : 0 < x := lt_of_le_of_ne hx (Ne.symm hx0)
  by_cases hu : f.ulpExp x ≤ k
  · have h1 : x / 2 ^ f.ulpExp x ≤ ((2 ^ (k - f.ulpExp x).toNat : ℤ) : ℚ) := by
      push_cast
      rw [div_le_iff₀ (two_zpow_pos _), ← zpow_natCast, Int.toNat_of_nonneg (by omega),
        ← zpow_add₀ (by norm_num)]
      simpa using hxk
    have h2 := rne_mono h1
    rw [rne_int] at h2
    have h3 : (rne (x / 2 ^ f.ulpExp x) : ℚ) ≤ ((2 ^ (k - f.ulpExp x).toNat : ℤ) : ℚ) := by
      exact_mod_cast h2
    unfold Fmt.rnd
    calc (rne (x / 2 ^ f.ulpExp x) : ℚ) * 2 ^ f.ulpExp x
        ≤ ((2 ^ (k - f.ulpExp x).toNat : ℤ) : ℚ) * 2 ^ f.ulpExp x :=
          mul_le_mul_of_nonneg_right h3 (two_zpow_pos _).le
      _ = 2 ^ k := by
          push_cast
          rw [← zpow_natCast, Int.toNat_of_nonneg (by omega), ← zpow_add₀ (by norm_num)]
          congr 1; omega
  · exfalso
    push Not at hu
    have hlog : f.ulpExp x = Int.log 2 |x| - (f.p - 1) := by
      unfold Fmt.ulpExp at hu ⊢
      rcases max_choice (Int.log 2 |x| - ((f.p : ℤ) - 1)) f.emin with h | h
      · exact h
      · rw [h] at hu; omega
    have h1 : ((2 : ℕ) : ℚ) ^ (Int.log 2 |x|) ≤ |x| :=
      Int.zpow_log_le_self (by norm_num) (abs_pos.2 hx0)
    rw [abs_of_pos hxp] at h1 hlog
    have hp := f.p_pos
    have : (2 : ℚ) ^ (k + 1) ≤ 2 ^ (Int.log 2 x) := zpow_le_zpow_right₀ (by norm_num) (by omega)
    have h3 : (2 : ℚ) ^ (k + 1) ≤ 2 ^ k := this.trans ((by exact_mod_cast h1 : _ ≤ x).trans hxk)
    have := (zpow_le_zpow_iff_right₀ (a := (2 : ℚ)) (by norm_num)).1 h3
    omega

theorem rnd_ge_of_zpow_le (f : Fmt) {x : ℚ} {k : ℤ} (hxk : 2 ^ k ≤ x)
    (hu : f.ulpExp x ≤ k) : 2 ^ k ≤ f.rnd x := by
  have h1 : ((2 ^ (k - f.ulpExp x).toNat : ℤ) : ℚ) ≤ x / 2 ^ f.ulpExp x := by
    push_cast
    rw [le_div_iff₀ (two_zpow_pos _), ← zpow_natCast, Int.toNat_of_nonneg (by omega),
      ← zpow_add₀ (by norm_num)]
    simpa using hxk
  have h2 := rne_mono h1
  rw [rne_int] at h2
  have h3 : ((2 ^ (k - f.ulpExp x).toNat : ℤ) : ℚ) ≤ (rne (x / 2 ^ f.ulpExp x) : ℚ) := by
    exact_mod_cast h2
  unfold Fmt.rnd
  calc (2 : ℚ) ^ k = ((2 ^ (k - f.ulpExp x).toNat : ℤ) : ℚ) * 2 ^ f.ulpExp x := by
        push_cast
        rw [← zpow_natCast, Int.toNat_of_nonneg (by omega), ← zpow_add₀ (by norm_num)]
        congr 1; omega
    _ ≤ _ := mul_le_mul_of_nonneg_right h3 (two_zpow_pos _).le

theorem rnd_mono_pos (f : Fmt) {x y : ℚ} (hx : 0 < x) (hxy : x ≤ y) : f.rnd x ≤ f.rnd y := by
  have hy : 0 < y := lt_of_lt_of_le hx hxy
  have hle : f.ulpExp x ≤ f.ulpExp y := by
    unfold Fmt.ulpExp
    rw [abs_of_pos hx, abs_of_pos hy]
    have := Int.log_mono_right (b := 2) hx hxy
    exact max_le_max (by omega) le_rfl
  rcases eq_or_lt_of_le hle with heq | hlt
  · unfold Fmt.rnd
    rw [← heq]
    refine mul_le_mul_of_nonneg_right ?_ (two_zpow_pos _).le
    have : x / 2 ^ f.ulpExp x ≤ y / 2 ^ f.ulpExp x :=
      div_le_div_of_nonneg_right hxy (two_zpow_pos _).le
    exact_mod_cast rne_mono this
  · have hp := f.p_pos
    have hem := ulpExp_ge f x
    -- the exponent of y comes from its size
    have hlogy : f.ulpExp y = Int.log 2 y - (f.p - 1) := by
      have := hlt
      unfold Fmt.ulpExp at hlt hem ⊢
      rw [abs_of_pos hy] at hlt ⊢
      rcases max_choice (Int.log 2 y - ((f.p : ℤ) - 1)) f.emin with h | h
      · exact h
      · rw [h] at hlt; omega
    have hxlog : Int.log 2 x < Int.log 2 y := by
      have : Int.log 2 x - (f.p - 1) ≤ f.ulpExp x := by
        unfold Fmt.ulpExp; rw [abs_of_pos hx]; exact le_max_left _ _
      omega
    have h1 : x ≤ 2 ^ (Int.log 2 y) := by
      have := (Int.lt_zpow_iff_log_lt (b := 2) (by norm_num) hx).2 hxlog
      exact le_of_lt (by exact_mod_cast this)
    have h2 : (2 : ℚ) ^ (Int.log 2 y) ≤ y := by
      have := Int.zpow_log_le_self (b := 2) (by norm_num) hy
      exact_mod_cast this
    exact (rnd_le_of_lt_zpow f hx.le h1 (by omega)).trans (rnd_ge_of_zpow_le f h2 (by omega))

/-- Rounding is monotone. -/
theorem rnd_mono (f : Fmt) {x y : ℚ} (hxy : x ≤ y) : f.rnd x ≤ f.rnd y := by
  rcases lt_trichotomy x 0 with hx | hx | hx
  · rcases lt_or_ge y 0 with hy | hy
    · have := rnd_mono_pos f (x := -y) (y := -x) (by linarith) (by linarith)
      rw [rnd_neg, rnd_neg] at this
      linarith
    · have h1 := rnd_nonneg f hy
      have h2 := rnd_nonneg f (x := -x) (by linarith)
      rw [rnd_neg] at h2
      linarith
  · subst hx
    rw [rnd_zero]
    exact rnd_nonneg f hxy
  · exact rnd_mono_pos f hx hxy

/-- The result of rounding is a value of the format (up to overflow). -/
theorem rnd_rep (f : Fmt) (x : ℚ) :
    ∃ (m : ℤ) (e : ℤ), f.emin ≤ e ∧ |m| ≤ 2 ^ f.p ∧ f.rnd x = m * 2 ^ e := by
  refine ⟨rne (x / 2 ^ f.ulpExp x), f.ulpExp x, ulpExp_ge f x, ?_, rfl⟩
  have hx : |x| < ((2 : ℕ) : ℚ) ^ (Int.log 2 |x| + 1) := Int.lt_zpow_succ_log_self (by norm_num) _
  have hu : Int.log 2 |x| - (f.p - 1) ≤ f.ulpExp x := le_max_left _ _
  have h1 : |x / 2 ^ f.ulpExp x| ≤ ((2 ^ f.p : ℤ) : ℚ) := by
    rw [abs_div, abs_of_pos (two_zpow_pos _), div_le_iff₀ (two_zpow_pos _)]
    push_cast
    rw [← zpow_natCast, ← zpow_add₀ (by norm_num)]
    refine (le_of_lt (by exact_mod_cast hx)).trans
      (zpow_le_zpow_right₀ (by norm_num) (by omega))
  rw [abs_le] at h1 ⊢
  constructor
  · have := rne_mono h1.1
    rw [rne_neg, rne_int] at this
    exact this
  · have := rne_mono h1.2
    rw [rne_int] at this
    exact this

/-- Rounding twice is rounding once. -/
theorem rnd_idem (f : Fmt) (x : ℚ) : f.rnd (f.rnd x) = f.rnd x := by
  obtain ⟨m, e, he, hm, hx⟩ := rnd_rep f x
  rw [hx]
  exact rnd_exact f he hm

theorem Fmt.Rep.rnd {f : Fmt} {x : ℚ} (h : f.Rep x) : f.rnd x = x := by
  obtain ⟨⟨m, e, he, hm, rfl⟩, _⟩ := h
  exact rnd_exact f he hm

/-- Absolute error: half a unit in the last place. -/
theorem rnd_err (f : Fmt) (x : ℚ) : |f.rnd x - x| ≤ 2 ^ f.ulpExp x / 2 := by
  have h := rne_err (x / 2 ^ f.ulpExp x)
  have h0 := two_zpow_pos (f.ulpExp x)
  have e : f.rnd x - x = ((rne (x / 2 ^ f.ulpExp x) : ℚ) - x / 2 ^ f.ulpExp x) * 2 ^ f.ulpExp x := by
    unfold Fmt.rnd
    rw [sub_mul, div_mul_cancel₀ _ h0.ne']
  rw [e, abs_mul, abs_of_pos h0]
  nlinarith

/-- Relative error in the normal range. -/
theorem rnd_rel (f : Fmt) {x : ℚ} (hx : 2 ^ (f.emin + f.p - 1) ≤ |x|) :
    |f.rnd x - x| ≤ |x| / 2 ^ f.p := by
  have hpos : 0 < |x| := lt_of_lt_of_le (two_zpow_pos _) hx
  have hlog : f.emin + f.p - 1 ≤ Int.log 2 |x| :=
    (Int.zpow_le_iff_le_log (b := 2) (by norm_num) hpos).1 (by exact_mod_cast hx)
  have hu : f.ulpExp x = Int.log 2 |x| - (f.p - 1) := by
    unfold Fmt.ulpExp
    exact max_eq_left (by omega)
  refine (rnd_err f x).trans ?_
  have h1 : (2 : ℚ) ^ (Int.log 2 |x|) ≤ |x| := by
    exact_mod_cast Int.zpow_log_le_self (b := 2) (by norm_num) hpos
  rw [hu]
  have h2 : (2 : ℚ) ^ (Int.log 2 |x| - ((f.p : ℤ) - 1)) / 2 = 2 ^ (Int.log 2 |x|) / 2 ^ f.p := by
    have : Int.log 2 |x| - ((f.p : ℤ) - 1) = Int.log 2 |x| - f.p + 1 := by ring
    rw [this, zpow_add₀ (by norm_num), zpow_sub₀ (by norm_num), zpow_natCast]
    field_simp
  rw [h2]
  exact div_le_div_of_nonneg_right h1 (by positivity)

/-- Error bound without a normality assumption. -/
theorem rnd_err_all (f : Fmt) (x : ℚ) : |f.rnd x - x| ≤ |x| / 2 ^ f.p + 2 ^ f.emin / 2 := by
  have h00 := two_zpow_pos f.emin
  by_cases hx0 : x = 0
  · subst hx0
    rw [rnd_zero]
    simp only [sub_self, abs_zero, zero_div, zero_add]
    linarith
  by_cases hx : 2 ^ (f.emin + f.p - 1) ≤ |x|
  · have := rnd_rel f hx
    linarith
  · refine (rnd_err f x).trans ?_
    have h0 : 0 ≤ |x| / 2 ^ f.p := by positivity
    have hu : f.ulpExp x = f.emin := by
      unfold Fmt.ulpExp
      refine max_eq_right ?_
      push Not at hx
      have := (Int.lt_zpow_iff_log_lt (b := 2) (by norm_num) (abs_pos.2 hx0)).1
        (by exact_mod_cast hx)
      omega
    rw [hu]
    linarith

/-! ### Operations -/

theorem rnd_abs_le (f : Fmt) {x b : ℚ} (hx : |x| ≤ b) (hb : f.rnd b = b) : |f.rnd x| ≤ b := by
  rw [abs_rnd, ← hb]
  exact rnd_mono f hx

theorem rnd_le (f : Fmt) {x b : ℚ} (hx : x ≤ b) (hb : f.rnd b = b) : f.rnd x ≤ b := by
  rw [← hb]; exact rnd_mono f hx

theorem le_rnd (f : Fmt) {x b : ℚ} (hx : b ≤ x) (hb : f.rnd b = b) : b ≤ f.rnd x := by
  rw [← hb]; exact rnd_mono f hx

/-- Operations with a result below `2^emax` in size do not overflow. -/
theorem fl_ok (f : Fmt) {x : ℚ} (hx : |x| ≤ 2 ^ f.emax) : f.fl x = .ok (f.rnd x) := by
  have h1 := f.hem
  have h2 : |f.rnd x| ≤ 2 ^ f.emax := rnd_abs_le f hx (rnd_zpow f (by omega))
  have h3 : (2 : ℚ) ^ f.emax < 2 ^ (f.emax + 1) := zpow_lt_zpow_right₀ (by norm_num) (by omega)
  unfold Fmt.fl
  rw [if_pos (lt_of_le_of_lt h2 h3)]

theorem div_ok (f : Fmt) {a b : ℚ} (hb : b ≠ 0) (hx : |a / b| ≤ 2 ^ f.emax) :
    f.div a b = .ok (f.rnd (a / b)) := by
  unfold Fmt.div
  rw [if_neg hb, fl_ok f hx]

theorem f64_ok {x : ℚ} (hx : |x| ≤ 10 ^ 60) : f64 x = .ok (Fmt.b64.rnd x) := by
  refine fl_ok _ (hx.trans ?_)
  have : Fmt.b64.emax = ((1023 : ℕ) : ℤ) := rfl
  rw [this, zpow_natCast]
  calc (10 : ℚ) ^ 60 ≤ 2 ^ 200 := by norm_num
    _ ≤ 2 ^ 1023 := pow_le_pow_right₀ (by norm_num) (by norm_num)

theorem f32_ok {x : ℚ} (hx : |x| ≤ 10 ^ 38) : f32 x = .ok (Fmt.b32.rnd x) := by
  refine fl_ok _ (hx.trans ?_)
  have : Fmt.b32.emax = ((127 : ℕ) : ℤ) := rfl
  rw [this, zpow_natCast]
  norm_num

theorem f64div_ok {a b : ℚ} (hb : b ≠ 0) (hx : |a / b| ≤ 10 ^ 60) :
    f64div a b = .ok (Fmt.b64.rnd (a / b)) := by
  have := f64_ok hx
  unfold f64div Fmt.div
  rw [if_neg hb]
  exact this

theorem f32div_ok {a b : ℚ} (hb : b ≠ 0) (hx : |a / b| ≤ 10 ^ 38) :
    f32div a b = .ok (Fmt.b32.rnd (a / b)) := by
  have := f32_ok hx
  unfold f32div Fmt.div
  rw [if_neg hb]
  exact this

/-- Integers up to `2^53` are doubles. -/
theorem rnd64_int {m : ℤ} (hm : |m| ≤ 9007199254740992) : Fmt.b64.rnd (m : ℚ) = m :=
  rnd_int _ (by decide) (hm.trans (by norm_num [Fmt.b64]))

/-- Integers up to `2^24` are floats. -/
theorem rnd32_int {m : ℤ} (hm : |m| ≤ 16777216) : Fmt.b32.rnd (m : ℚ) = m :=
  rnd_int _ (by decide) (hm.trans (by norm_num [Fmt.b32]))

/-- Rounding error of a `double` operation. -/
theorem rnd64_err (x : ℚ) : |Fmt.b64.rnd x - x| ≤ |x| / 2 ^ 53 + 1 / 2 ^ 1075 := by
  refine (rnd_err_all Fmt.b64 x).trans (le_of_eq ?_)
  have h : (2 : ℚ) ^ Fmt.b64.emin / 2 = 1 / 2 ^ 1075 := by
    have : Fmt.b64.emin = -((1074 : ℕ) : ℤ) := rfl
    rw [this, zpow_neg, zpow_natCast, pow_succ (2 : ℚ) 1074, one_div, mul_inv, div_eq_mul_inv]
  rw [h]
  rfl

/-- Rounding error of a `float` operation. -/
theorem rnd32_err (x : ℚ) : |Fmt.b32.rnd x - x| ≤ |x| / 2 ^ 24 + 1 / 2 ^ 150 := by
  refine (rnd_err_all Fmt.b32 x).trans (le_of_eq ?_)
  have h : (2 : ℚ) ^ Fmt.b32.emin / 2 = 1 / 2 ^ 150 := by
    have : Fmt.b32.emin = -((149 : ℕ) : ℤ) := rfl
    rw [this, zpow_neg, zpow_natCast]
    norm_num
  rw [h]
  rfl

theorem fl_rep (f : Fmt) {x y : ℚ} (h : f.fl x = .ok y) : f.Rep y := by
  unfold Fmt.fl at h
  split at h
  · rename_i hlt
    have e : f.rnd x = y := by injection h
    rw [← e]
    exact ⟨rnd_rep f x, hlt⟩
  · cases h

theorem trunc_nonneg {q : ℚ} (h : 0 ≤ q) : trunc q = ⌊q⌋ := by simp [trunc, h]

theorem trunc_int (z : ℤ) : trunc (z : ℚ) = z := by
  unfold trunc; split_ifs <;> simp

theorem castInt_ok {lo hi : ℤ} {q : ℚ} (h1 : lo ≤ trunc q) (h2 : trunc q ≤ hi) :
    castInt lo hi q = .ok (trunc q) := by simp [castInt, h1, h2]

theorem castU8_ok {q : ℚ} (h1 : 0 ≤ q) (h2 : q < 256) :
    castU8 q = .ok (u8OfInt ⌊q⌋) := by
  unfold castU8
  have h3 : 0 ≤ ⌊q⌋ := Int.floor_nonneg.2 h1
  have h4 : ⌊q⌋ < 256 := Int.floor_lt.2 (by exact_mod_cast h2)
  rw [castInt_ok (by rw [trunc_nonneg h1]; exact h3) (by rw [trunc_nonneg h1]; omega),
    trunc_nonneg h1]
  rfl

/-- Evaluation of the rounding in a known binade. -/
theorem rnd_binade (f : Fmt) {x : ℚ} {k : ℤ} (h1 : 2 ^ k ≤ |x|) (h2 : |x| < 2 ^ (k + 1))
    (hk : f.emin ≤ k - (f.p - 1)) :
    f.rnd x = rne (x / 2 ^ (k - ((f.p : ℤ) - 1))) * 2 ^ (k - ((f.p : ℤ) - 1)) := by
  have hpos : 0 < |x| := lt_of_lt_of_le (two_zpow_pos k) h1
  have hlog : Int.log 2 |x| = k := by
    have a := (Int.zpow_le_iff_le_log (b := 2) (by norm_num) hpos).1 (by exact_mod_cast h1)
    have b := (Int.lt_zpow_iff_log_lt (b := 2) (by norm_num) hpos).1 (by exact_mod_cast h2)
    omega
  have hu : f.ulpExp x = k - (f.p - 1) := by
    unfold Fmt.ulpExp
    rw [hlog]
    exact max_eq_left (by omega)
  unfold Fmt.rnd
  rw [hu]

/-- The model computes the usual values: the `double` literal `0.1`. -/
example : Fmt.b64.rnd (1 / 10) = 3602879701896397 / 2 ^ 55 := by
  rw [rnd_binade Fmt.b64 (k := -4) (by norm_num [abs_of_pos]) (by norm_num [abs_of_pos])
    (by decide)]
  norm_num [rne, Fmt.b64]

end FlatCV
