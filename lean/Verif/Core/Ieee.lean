/-
Semantics of C used by the model, part 6: floating-point arithmetic with NaN and infinities.

`Dbl` (also used for `float`) is NaN, an infinity or a finite value.  The two zeros are one value,
so dividing a nonzero number by zero, whose result depends on the sign of the zero, is the fault
`fpSpecial`; `0/0` is NaN either way.
-/
import Verif.Core.Float

namespace FlatCV

/-- Round the exact value `x`; beyond the range the result is an infinity. -/
def Fmt.lift (f : Fmt) (x : ℚ) : Dbl :=
  if |f.rnd x| < 2 ^ (f.emax + 1) then .fin (f.rnd x) else .inf (decide (x < 0))

namespace Dbl

def neg : Dbl → Dbl
  | nan => nan
  | inf s => inf (!s)
  | fin q => fin (-q)

def add (f : Fmt) : Dbl → Dbl → Dbl
  | nan, _ => nan
  | _, nan => nan
  | inf a, inf b => if a = b then inf a else nan
  | inf a, fin _ => inf a
  | fin _, inf b => inf b
  | fin a, fin b => f.lift (a + b)

def sub (f : Fmt) (a b : Dbl) : Dbl := add f a (neg b)

def mul (f : Fmt) : Dbl → Dbl → Dbl
  | nan, _ => nan
  | _, nan => nan
  | inf a, inf b => inf (a != b)
  | inf a, fin q => if q = 0 then nan else inf (a != decide (q < 0))
  | fin q, inf a => if q = 0 then nan else inf (a != decide (q < 0))
  | fin a, fin b => f.lift (a * b)

def div (f : Fmt) : Dbl → Dbl → CM Dbl
  | nan, _ => .ok nan
  | _, nan => .ok nan
  | inf _, inf _ => .ok nan
  | inf a, fin q => if q = 0 then .error .fpSpecial else .ok (inf (a != decide (q < 0)))
  | fin _, inf _ => .ok (fin 0)
  | fin a, fin b =>
    if b = 0 then if a = 0 then .ok nan else .error .fpSpecial
    else .ok (f.lift (a / b))

/-- Conversion to another format. -/
def conv (f : Fmt) : Dbl → Dbl
  | nan => nan
  | inf s => inf s
  | fin q => f.lift q

/-- `isfinite`. -/
def isFin : Dbl → Bool
  | fin _ => true
  | _ => false

/-- `a < b`; false when one of them is NaN. -/
def lt : Dbl → Dbl → Bool
  | nan, _ => false
  | _, nan => false
  | inf a, inf b => a && !b
  | inf a, fin _ => a
  | fin _, inf b => !b
  | fin a, fin b => decide (a < b)

/-- `a <= b`; false when one of them is NaN. -/
def le : Dbl → Dbl → Bool
  | nan, _ => false
  | _, nan => false
  | inf a, inf b => a || !b
  | inf a, fin _ => a
  | fin _, inf b => !b
  | fin a, fin b => decide (a ≤ b)

/-- Conversions to integer types are undefined for NaN, infinities and values out of range. -/
def toI32 : Dbl → CM ℤ
  | fin q => castI32 q
  | _ => .error .castRange
def toU32 : Dbl → CM ℕ
  | fin q => castU32 q
  | _ => .error .castRange
def toU8 : Dbl → CM UInt8
  | fin q => castU8 q
  | _ => .error .castRange

end Dbl

theorem lift_ok (f : Fmt) {x : ℚ} (hx : |x| ≤ 2 ^ f.emax) : f.lift x = .fin (f.rnd x) := by
  have := fl_ok f hx
  unfold Fmt.fl at this
  unfold Fmt.lift
  by_cases h : |f.rnd x| < 2 ^ (f.emax + 1)
  · rw [if_pos h]
  · rw [if_neg h] at this
    cases this

theorem lift32 {x : ℚ} {k : ℕ} (hk : k ≤ 127) (hx : |x| ≤ 2 ^ k) : Fmt.b32.lift x = .fin (Fmt.b32.rnd x) := by
  apply lift_ok
  refine hx.trans ?_
  rw [← zpow_natCast]
  exact zpow_le_zpow_right₀ (by norm_num) (by
    have : Fmt.b32.emax = 127 := rfl
    omega)

theorem lift64 {x : ℚ} {k : ℕ} (hk : k ≤ 1023) (hx : |x| ≤ 2 ^ k) : Fmt.b64.lift x = .fin (Fmt.b64.rnd x) := by
  apply lift_ok
  refine hx.trans ?_
  rw [← zpow_natCast]
  exact zpow_le_zpow_right₀ (by norm_num) (by
    have : Fmt.b64.emax = 1023 := rfl
    omega)

/-- Relative error of a `float` operation whose exact result is zero or not tiny. -/
theorem rnd32_rel {x : ℚ} (hx : x = 0 ∨ 1 / 2 ^ 126 ≤ x) :
    x * (1 - 1 / 2 ^ 24) ≤ Fmt.b32.rnd x ∧ Fmt.b32.rnd x ≤ x * (1 + 1 / 2 ^ 24) := by
  rcases hx with rfl | hx
  · rw [rnd_zero]; norm_num
  · have h0 : 0 < x := lt_of_lt_of_le (by positivity) hx
    have := rnd_rel Fmt.b32 (x := x) (by
      rw [abs_of_pos h0]
      refine le_trans (le_of_eq ?_) hx
      rw [show Fmt.b32.emin + (Fmt.b32.p : ℤ) - 1 = -(126 : ℕ) by decide, zpow_neg, zpow_natCast, one_div])
    rw [abs_of_pos h0, show Fmt.b32.p = 24 from rfl, abs_le] at this
    constructor
    · have h2 := this.1
      rw [div_eq_mul_one_div] at h2
      linarith
    · have h2 := this.2
      rw [div_eq_mul_one_div] at h2
      linarith

end FlatCV
