/-
The CRC of the PNG writer: the table gives the same as dividing bit by bit; chunks are read back.
-/
import Verif.Lemmas.PngZlib

namespace FlatCV
open Model Png

/-! ### CRC -/

theorem xor_div_two (a b : Nat) : (a ^^^ b) / 2 = a / 2 ^^^ b / 2 := by
  apply Nat.eq_of_testBit_eq
  intro i
  simp only [Nat.testBit_div_two, Nat.testBit_xor]

theorem xor_mod_two (a b : Nat) : (a ^^^ b) % 2 = (a % 2 + b % 2) % 2 := by
  have h := congrArg Bool.toNat (Nat.testBit_xor a b 0)
  simp only [Nat.testBit_zero] at h
  rcases Nat.mod_two_eq_zero_or_one a with ha | ha <;> rcases Nat.mod_two_eq_zero_or_one b with hb | hb <;>
    rcases Nat.mod_two_eq_zero_or_one (a ^^^ b) with hc | hc <;> simp [ha, hb, hc] at h ⊢

theorem crcStep_xor (a b : Nat) : crcStep (a ^^^ b) = crcStep a ^^^ crcStep b := by
  simp only [crcStep, xor_mod_two, xor_div_two]
  generalize 0xEDB88320 = P
  rcases Nat.mod_two_eq_zero_or_one a with ha | ha <;> rcases Nat.mod_two_eq_zero_or_one b with hb | hb <;> simp only [ha, hb]
  · simp
  · simp [Nat.xor_assoc]
  · simp only [Nat.reduceAdd, Nat.reduceMod, if_true]
    rw [if_neg (by decide), Nat.xor_assoc, Nat.xor_assoc, Nat.xor_comm P]
  · simp only [Nat.reduceAdd, Nat.reduceMod, if_true]
    rw [if_neg (by decide), Nat.xor_assoc, Nat.xor_comm P, Nat.xor_assoc (b / 2), Nat.xor_self, Nat.xor_zero]

/-- Eight steps. -/
def crcByte (c : Nat) : Nat := crcStep (crcStep (crcStep (crcStep (crcStep (crcStep (crcStep (crcStep c)))))))

theorem crcByte_xor (a b : Nat) : crcByte (a ^^^ b) = crcByte a ^^^ crcByte b := by simp only [crcByte, crcStep_xor]

theorem crcByte_shift (m : Nat) : crcByte (256 * m) = m := by
  have h : ∀ k, crcStep (2 * k) = k := fun k => by rw [crcStep, if_neg (by omega)]; omega
  rw [show 256 * m = 2 * (2 * (2 * (2 * (2 * (2 * (2 * (2 * m))))))) by ring, crcByte]
  simp only [h]

theorem crc_table_eq : ∀ i < 256, crc_table[i]? = some (crcByte i) := by decide +kernel

theorem crcStep_lt {c : Nat} (h : c < 2 ^ 32) : crcStep c < 2 ^ 32 := by
  rw [crcStep]
  split_ifs
  · exact Nat.xor_lt_two_pow (by omega) (by decide)
  · omega

theorem crcByte_lt {c : Nat} (h : c < 2 ^ 32) : crcByte c < 2 ^ 32 := by
  rw [crcByte]
  exact crcStep_lt (crcStep_lt (crcStep_lt (crcStep_lt (crcStep_lt (crcStep_lt (crcStep_lt (crcStep_lt h)))))))

/-- The CRC before the final complement. -/
def crcRun (l : List UInt8) : Nat := l.foldl (fun c b => crcByte (c ^^^ b.toNat)) 0xFFFFFFFF

theorem crcRun_lt (l : List UInt8) : crcRun l < 2 ^ 32 := by
  induction l using List.reverseRecOn with
  | nil => decide
  | append_singleton l v ih =>
    rw [crcRun, List.foldl_append]
    exact crcByte_lt (Nat.xor_lt_two_pow ih (lt_trans v.toNat_lt (by decide)))

theorem crcRun_snoc (l : List UInt8) (v : UInt8) : crcRun (l ++ [v]) = crcByte (crcRun l ^^^ v.toNat) := by
  rw [crcRun, List.foldl_append]; rfl

theorem crc32_lt (l : List UInt8) : crc32 l < 2 ^ 32 := Nat.xor_lt_two_pow (crcRun_lt l) (by decide)

theorem crc_step_eq (c b : Nat) (hb : b < 256) : crcByte (c ^^^ b) = (c / 256) ^^^ crcByte (b ^^^ c % 256) := by
  have hlow : b ^^^ c % 256 < 2 ^ 8 := Nat.xor_lt_two_pow hb (Nat.mod_lt _ (by decide))
  have e : c = 256 * (c / 256) ^^^ c % 256 := by
    have h : c % 256 < 2 ^ 8 := Nat.mod_lt _ (by decide)
    have := Nat.two_pow_add_eq_or_of_lt h (c / 256)
    have e2 : 256 * (c / 256) ^^^ c % 256 = 2 ^ 8 * (c / 256) ||| c % 256 := by
      apply Nat.eq_of_testBit_eq
      intro i
      rw [Nat.testBit_xor, Nat.testBit_or, show (256 : Nat) = 2 ^ 8 from rfl, Nat.testBit_two_pow_mul, Nat.testBit_mod_two_pow]
      by_cases hi : i < 8
      · have : ¬ 8 ≤ i := by omega
        simp [hi, this]
      · simp [hi]
    rw [e2, ← this]
    omega
  conv_lhs => rw [e]
  rw [Nat.xor_assoc, crcByte_xor, crcByte_shift, Nat.xor_comm b]

theorem crc32_ok (l : List UInt8) : stbiw_crc32 l = .ok (crc32 l) := by
  rw [stbiw_crc32]
  have key : ∀ n, n ≤ l.length → (forN n 0xFFFFFFFF fun i crc => do
      let b ← rdIn l i
      let t ← rdIn crc_table (b.toNat ^^^ (crc % 256))
      pure ((crc / 256) ^^^ t)) = .ok (crcRun (l.take n)) := by
    intro n
    induction n with
    | zero => intro _; rfl
    | succ n ih =>
      intro hn
      rw [forN_succ, ih (by omega), ok_bind, rdIn_ok (List.getElem?_eq_getElem (by omega : n < l.length)), ok_bind]
      have hb : l[n].toNat < 256 := l[n].toNat_lt
      have hlow : l[n].toNat ^^^ crcRun (l.take n) % 256 < 2 ^ 8 := Nat.xor_lt_two_pow hb (Nat.mod_lt _ (by decide))
      rw [rdIn_ok (crc_table_eq _ hlow), ok_bind, ← take_snoc (by omega), crcRun_snoc, crc_step_eq _ _ hb]
      rfl
  rw [key l.length le_rfl, List.take_length, ok_bind]
  rfl

/-! ### Chunks -/

theorem readBe32_wp32 {n : Nat} (hn : n < 2 ^ 32) (l : List UInt8) : readBe32 (stbiw_wp32 n ++ l) = some (n, l) := by
  have e : stbiw_wp32 n ++ l = u8 (n / 16777216) :: u8 (n / 65536) :: u8 (n / 256) :: u8 n :: l := rfl
  rw [e, readBe32]
  simp only [u8, UInt8.toNat_ofNat', Option.some.injEq, Prod.mk.injEq, and_true]
  omega

theorem readChunk_ok {type data rest : List UInt8} (ht : type.length = 4) (hd : data.length < 2 ^ 32) :
    readChunk (stbiw_wp32 data.length ++ (type ++ data) ++ stbiw_wp32 (crc32 (type ++ data)) ++ rest) = some (type, data, rest) := by
  rw [List.append_assoc, List.append_assoc, readChunk, readBe32_wp32 hd]
  simp only
  have h4 : (type ++ data).length = 4 + data.length := by simp [ht]
  rw [if_pos (by simp [stbiw_wp32, ht]; omega), List.drop_left' h4, List.take_left' h4, readBe32_wp32 (crc32_lt _)]
  simp only
  rw [if_pos trivial, List.drop_left' ht, List.append_assoc, List.take_left' ht]

end FlatCV
