/-
Semantics of C used by the model, part 2: integer types.

`uint8_t` is `UInt8`; `uint32_t` and `size_t` are `Nat`s reduced after every operation;
`int32_t` is an `Int` whose operations are range checked.
-/
import Verif.Core.Fault

namespace FlatCV

/-- Reduction to `uint32_t`. -/
def u32 (n : Nat) : Nat := n % 4294967296

/-- `uint32_t` subtraction `a - b`. -/
def u32sub (a b : Nat) : Nat := (a + 4294967296 - b) % 4294967296

/-- Conversion of an integer to `uint32_t`. -/
def u32OfInt (z : Int) : Nat := (z % 4294967296).toNat

/-- A value of type `uint32_t`. -/
def IsU32 (n : Nat) : Prop := n < 4294967296

instance (n : Nat) : Decidable (IsU32 n) := inferInstanceAs (Decidable (n < 4294967296))

/-- Result of an `int32_t` operation: overflow is undefined behaviour. -/
def i32 (z : Int) : CM Int :=
  if -2147483648 ≤ z ∧ z ≤ 2147483647 then .ok z else .error .signedOverflow

/-- A value of type `int32_t`. -/
def IsI32 (z : Int) : Prop := -2147483648 ≤ z ∧ z ≤ 2147483647

instance (z : Int) : Decidable (IsI32 z) :=
  inferInstanceAs (Decidable (-2147483648 ≤ z ∧ z ≤ 2147483647))

/-- Conversion `uint32_t → int32_t` (implementation defined; two's complement wrap). -/
def i32OfU32 (n : Nat) : Int :=
  if n % 4294967296 < 2147483648 then (n % 4294967296 : Nat)
  else ((n % 4294967296 : Nat) : Int) - 4294967296

/-- Conversion of an integer to `uint8_t`. -/
def u8 (n : Nat) : UInt8 := UInt8.ofNat n

/-- Conversion of a (signed) integer to `uint8_t`. -/
def u8OfInt (z : Int) : UInt8 := UInt8.ofNat (z % 256).toNat

/-- The platform: width of `size_t` (at least 32 bits). -/
structure Plat where
  szBits : Nat
  ge32 : 32 ≤ szBits

/-- Number of `size_t` values. -/
def Plat.mod (P : Plat) : Nat := 2 ^ P.szBits

/-- `SIZE_MAX`. -/
def Plat.szMax (P : Plat) : Nat := P.mod - 1

/-- Reduction to `size_t`. -/
def Plat.sz (P : Plat) (n : Nat) : Nat := n % P.mod

/-- The common 64-bit platform. -/
def Plat.lp64 : Plat := ⟨64, by decide⟩

/-! ### Rules -/

theorem u32_eq {n : Nat} (h : n < 4294967296) : u32 n = n := Nat.mod_eq_of_lt h

theorem u32_lt (n : Nat) : u32 n < 4294967296 := Nat.mod_lt _ (by decide)

theorem u32sub_eq {a b : Nat} (ha : a < 4294967296) (hb : b ≤ a) : u32sub a b = a - b := by
  unfold u32sub
  omega

theorem u32sub_rev {w x : Nat} (hw : w < 4294967296) (hx : x < w) :
    u32sub (u32sub w 1) x = w - 1 - x := by
  unfold u32sub
  omega

theorem i32_ok {z : Int} (h : IsI32 z) : i32 z = .ok z := by
  unfold i32 IsI32 at *
  rw [if_pos h]

theorem i32_err {z : Int} (h : ¬ IsI32 z) : i32 z = .error .signedOverflow := by
  unfold i32 IsI32 at *
  rw [if_neg h]

theorem i32OfU32_eq {n : Nat} (h : n < 2147483648) : i32OfU32 n = (n : Int) := by
  unfold i32OfU32
  rw [if_pos (by omega)]
  omega

theorem u32OfInt_eq {z : Int} (h0 : 0 ≤ z) (h : z < 4294967296) : u32OfInt z = z.toNat := by
  unfold u32OfInt
  omega

theorem Plat.mod_ge (P : Plat) : 4294967296 ≤ P.mod := by
  have : (4294967296 : Nat) = 2 ^ 32 := by decide
  rw [this]
  exact Nat.pow_le_pow_right (by decide) P.ge32

theorem Plat.sz_eq (P : Plat) {n : Nat} (h : n < P.mod) : P.sz n = n := Nat.mod_eq_of_lt h

theorem Plat.sz_eq' (P : Plat) {n : Nat} (h : n ≤ P.szMax) : P.sz n = n := by
  apply P.sz_eq
  have := P.mod_ge
  unfold Plat.szMax at h
  omega

theorem Plat.lt_mod_iff (P : Plat) {n : Nat} : n < P.mod ↔ n ≤ P.szMax := by
  have := P.mod_ge
  unfold Plat.szMax
  omega

/-- The usual overflow guard `a > SIZE_MAX / b` (with `b > 0`). -/
theorem Plat.mul_le_of_guard (P : Plat) {a b : Nat} (hb : 0 < b) (h : ¬ a > P.szMax / b) :
    a * b ≤ P.szMax := by
  have h' : a ≤ P.szMax / b := by omega
  exact (Nat.le_div_iff_mul_le hb).1 h'

theorem Plat.guard_of_mul_le (P : Plat) {a b : Nat} (hb : 0 < b) (h : a * b ≤ P.szMax) :
    ¬ a > P.szMax / b := by
  have := (Nat.le_div_iff_mul_le hb).2 h
  omega

theorem Plat.guard_iff (P : Plat) {a b : Nat} (hb : 0 < b) :
    a > P.szMax / b ↔ P.szMax < a * b := by
  constructor
  · intro h
    apply Nat.lt_of_not_le
    intro h'
    exact P.guard_of_mul_le hb h' h
  · intro h
    apply Decidable.byContradiction
    intro h'
    have := P.mul_le_of_guard hb h'
    omega

end FlatCV
