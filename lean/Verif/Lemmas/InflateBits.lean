/-
Reversing bits, as the Huffman decoder does.
-/
import Verif.Model.Inflate
import Verif.Lemmas.PngBits

namespace FlatCV
open Model Png

theorem num_lt (l : List Bool) : num l < 2 ^ l.length := by
  induction l with
  | nil => simp [num]
  | cons b l ih =>
    rw [num, List.length_cons, pow_succ]
    have := b.toNat_lt
    omega

theorem num_append (a b : List Bool) : num (a ++ b) = num a + num b * 2 ^ a.length := by
  induction a with
  | nil => simp [num]
  | cons x a ih => rw [List.cons_append, num, num, ih, List.length_cons, pow_succ]; ring

theorem low_of_num (l : List Bool) : low (num l) l.length = l := by
  induction l with
  | nil => rfl
  | cons b l ih =>
    rw [List.length_cons, low, num]
    have h1 : (b.toNat + 2 * num l) / 2 = num l := by have := b.toNat_lt; omega
    have h2 : (b.toNat + 2 * num l) % 2 = b.toNat := by have := b.toNat_lt; omega
    rw [h1, h2, ih]
    cases b <;> rfl

theorem msb_eq (l : List Bool) : msb l = num l.reverse := by
  have : ∀ (l : List Bool) (a : Nat), l.foldl (fun a b => 2 * a + b.toNat) a = num l.reverse + a * 2 ^ l.length := by
    intro l
    induction l with
    | nil => intro a; simp [num]
    | cons b l ih =>
      intro a
      rw [List.foldl_cons, ih, List.reverse_cons, num_append, List.length_reverse, List.length_cons, pow_succ]
      simp only [num]
      ring
  rw [msb, this]
  simp

theorem low_take (n : Nat) {s m : Nat} (h : s ≤ m) : (low n m).take s = low n s := by
  obtain ⟨d, rfl⟩ : ∃ d, m = s + d := ⟨m - s, by omega⟩
  rw [low_append, List.take_left' (by simp)]

/-- The `k` low bits in reverse order. -/
def rev (n k : Nat) : Nat := num (low n k).reverse

theorem rev_lt (n k : Nat) : rev n k < 2 ^ k := by
  have := num_lt (low n k).reverse
  rwa [List.length_reverse, low_length] at this

theorem low_rev (n k : Nat) : low (rev n k) k = (low n k).reverse := by
  have := low_of_num (low n k).reverse
  rwa [List.length_reverse, low_length] at this

theorem rev_rev {c k : Nat} (h : c < 2 ^ k) : rev (rev c k) k = c := by
  rw [rev, low_rev, List.reverse_reverse, low_num h]

theorem msb_low (n k : Nat) : msb (low n k) = rev n k := msb_eq _

/-- Fewer bits are a prefix. -/
theorem rev_div (n : Nat) {s m : Nat} (h : s ≤ m) : rev n s = rev n m / 2 ^ (m - s) := by
  obtain ⟨d, rfl⟩ : ∃ d, m = s + d := ⟨m - s, by omega⟩
  rw [rev, rev, low_append, List.reverse_append, num_append, List.length_reverse, low_length, Nat.add_sub_cancel_left,
    Nat.add_mul_div_right _ _ (by positivity), Nat.div_eq_of_lt, Nat.zero_add]
  have := num_lt (low (n / 2 ^ s) d).reverse
  rwa [List.length_reverse, low_length] at this

theorem rev_mod (n : Nat) {s m : Nat} (h : s ≤ m) : rev (n % 2 ^ m) s = rev n s := by
  rw [rev, rev, low_mod n s m h]

/-- The bits of the reversed number. -/
theorem num_testBit (l : List Bool) (i : Nat) : (num l).testBit i = l.getD i false := by
  induction l generalizing i with
  | nil => simp [num]
  | cons b l ih =>
    rw [num]
    cases i with
    | zero => rw [Nat.testBit_zero]; cases b <;> simp <;> omega
    | succ i =>
      rw [Nat.testBit_succ]
      have : (b.toNat + 2 * num l) / 2 = num l := by have := b.toNat_lt; omega
      rw [this, ih]
      simp

theorem bitreverse16_eq (n : Nat) : bitreverse16 n = rev n 16 := by
  have hl : (low n 16).reverse = (List.range 16).map fun i => n.testBit (15 - i) := by
    rw [← low_range]
    rfl
  have c1 : ∀ i, i < 32 → Nat.testBit 43690 i = decide (i < 16 ∧ i % 2 = 1) := by decide
  have c2 : ∀ i, i < 32 → Nat.testBit 21845 i = decide (i < 16 ∧ i % 2 = 0) := by decide
  have c3 : ∀ i, i < 32 → Nat.testBit 52428 i = decide (i < 16 ∧ i / 2 % 2 = 1) := by decide
  have c4 : ∀ i, i < 32 → Nat.testBit 13107 i = decide (i < 16 ∧ i / 2 % 2 = 0) := by decide
  have c5 : ∀ i, i < 32 → Nat.testBit 61680 i = decide (i < 16 ∧ i / 4 % 2 = 1) := by decide
  have c6 : ∀ i, i < 32 → Nat.testBit 3855 i = decide (i < 16 ∧ i / 4 % 2 = 0) := by decide
  have c7 : ∀ i, i < 32 → Nat.testBit 65280 i = decide (i < 16 ∧ i / 8 % 2 = 1) := by decide
  have c8 : ∀ i, i < 32 → Nat.testBit 255 i = decide (i < 16 ∧ i / 8 % 2 = 0) := by decide
  apply Nat.eq_of_testBit_eq
  intro i
  rw [rev, num_testBit, hl]
  by_cases hi : i < 16
  · have : i = 0 ∨ i = 1 ∨ i = 2 ∨ i = 3 ∨ i = 4 ∨ i = 5 ∨ i = 6 ∨ i = 7 ∨ i = 8 ∨ i = 9 ∨ i = 10 ∨ i = 11 ∨ i = 12 ∨ i = 13 ∨ i = 14 ∨ i = 15 := by omega
    rcases this with rfl | rfl | rfl | rfl | rfl | rfl | rfl | rfl | rfl | rfl | rfl | rfl | rfl | rfl | rfl | rfl <;>
      simp [c1, c2, c3, c4, c5, c6, c7, c8, bitreverse16, Nat.testBit_or, Nat.testBit_and, Nat.testBit_shiftLeft, Nat.testBit_shiftRight, List.range_succ]
  · rw [List.getD_eq_getElem?_getD, List.getElem?_eq_none (by simp; omega), Option.getD_none]
    simp only [bitreverse16, Nat.testBit_or, Nat.testBit_and, Nat.testBit_shiftLeft, Nat.testBit_shiftRight]
    have h1 : (0xFF00 : Nat).testBit (8 + i) = false := Nat.testBit_lt_two_pow (lt_of_lt_of_le (by norm_num) (Nat.pow_le_pow_right (by norm_num) (by omega : 16 ≤ 8 + i)))
    have h2 : (0x00FF : Nat).testBit (i - 8) = false := Nat.testBit_lt_two_pow (lt_of_lt_of_le (by norm_num) (Nat.pow_le_pow_right (by norm_num) (by omega : 8 ≤ i - 8)))
    rw [h1, h2]
    simp

/-- `stbi__bit_reverse` of a number of `s` bits. -/
theorem bit_reverse_ok {c s : Nat} (hs : s ≤ 16) : bit_reverse c s = .ok (rev c s) := by
  rw [bit_reverse, if_pos hs, bitreverse16_eq, Nat.shiftRight_eq_div_pow, ← rev_div c hs]

end FlatCV
