/-
Bits of the PNG writer: the growing buffer, the bit buffer, and the codes of RFC 1951 that are written.
-/
import Verif.Model.Png
import Verif.Spec.Png
import Verif.Lemmas.Mem

namespace FlatCV
open Model Png

/-! ### Lists of bits -/

/-- The `k` low bits of a number, the least significant first. -/
def low (n : Nat) : Nat → List Bool
  | 0 => []
  | k + 1 => (n % 2 == 1) :: low (n / 2) k

@[simp] theorem low_length (n k : Nat) : (low n k).length = k := by
  induction k generalizing n with
  | zero => rfl
  | succ k ih => simp [low, ih]

theorem low_num {n k : Nat} (h : n < 2 ^ k) : num (low n k) = n := by
  induction k generalizing n with
  | zero => simp [low, num]; omega
  | succ k ih =>
    have : n / 2 < 2 ^ k := by rw [pow_succ] at h; omega
    rw [low, num, ih this]
    rcases Nat.mod_two_eq_zero_or_one n with e | e <;> simp [e] <;> omega

theorem low_append (n a b : Nat) : low n (a + b) = low n a ++ low (n / 2 ^ a) b := by
  induction a generalizing n with
  | zero => simp [low]
  | succ a ih =>
    rw [show a + 1 + b = (a + b) + 1 by omega, low, ih, low, List.cons_append, Nat.div_div_eq_div_mul, ← Nat.pow_succ']

theorem low_mod (n k m : Nat) (h : k ≤ m) : low (n % 2 ^ m) k = low n k := by
  induction k generalizing n m with
  | zero => rfl
  | succ k ih =>
    obtain ⟨m, rfl⟩ : ∃ p, m = p + 1 := ⟨m - 1, by omega⟩
    rw [low, low]
    have e1 : n % 2 ^ (m + 1) % 2 = n % 2 := Nat.mod_mod_of_dvd n (Dvd.intro_left (2 ^ m) rfl)
    have e2 : n % 2 ^ (m + 1) / 2 = n / 2 % 2 ^ m := by rw [Nat.pow_succ', Nat.mod_mul_right_div_self]
    rw [e1, e2, ih _ _ (by omega)]

/-- Two numbers next to each other. -/
theorem low_add {a b x k : Nat} (hx : x < 2 ^ a) : low (x + b * 2 ^ a) (a + k) = low x a ++ low b k := by
  rw [low_append]
  have e1 : (x + b * 2 ^ a) / 2 ^ a = b := by
    rw [Nat.add_mul_div_right _ _ (by positivity), Nat.div_eq_of_lt hx, Nat.zero_add]
  have e2 : low (x + b * 2 ^ a) a = low x a := by
    rw [← low_mod (x + b * 2 ^ a) a a le_rfl, Nat.add_mul_mod_self_right, low_mod x a a le_rfl]
  rw [e1, e2]

theorem low_range (n k : Nat) : (List.range k).map (fun i => n.testBit i) = low n k := by
  induction k generalizing n with
  | zero => rfl
  | succ k ih =>
    rw [List.range_succ_eq_map, List.map_cons, low, List.map_map]
    have e : ((fun i => n.testBit i) ∘ Nat.succ) = fun i => (n / 2).testBit i := by
      funext i
      simp [Nat.testBit_succ]
    rw [e, ih, Nat.testBit_zero]
    congr 1

theorem bitsOfByte_u8 (n : Nat) : bitsOfByte (u8 n) = low n 8 := by
  rw [bitsOfByte, low_range, u8, UInt8.toNat_ofNat']
  exact low_mod n 8 8 le_rfl

theorem bitsOfByte_eq (b : UInt8) : bitsOfByte b = low b.toNat 8 := low_range _ _

@[simp] theorem bitsOf_nil : bitsOf [] = [] := rfl

theorem bitsOf_append (a b : List UInt8) : bitsOf (a ++ b) = bitsOf a ++ bitsOf b := by simp [bitsOf]

theorem bitsOf_cons (a : UInt8) (b : List UInt8) : bitsOf (a :: b) = low a.toNat 8 ++ bitsOf b := by
  rw [← bitsOfByte_eq]; rfl

@[simp] theorem bitsOf_length (l : List UInt8) : (bitsOf l).length = 8 * l.length := by
  induction l with
  | nil => rfl
  | cons a l ih => rw [bitsOf_cons]; simp [ih]; omega

theorem takeNum_low {n k : Nat} (h : n < 2 ^ k) (rest : List Bool) : takeNum k (low n k ++ rest) = some (n, rest) := by
  rw [takeNum, if_pos (by simp), List.take_left' (by simp), List.drop_left' (by simp), low_num h]

theorem bitsOf_inj {a b : List UInt8} (h : bitsOf a = bitsOf b) : a = b := by
  induction a generalizing b with
  | nil =>
    cases b with
    | nil => rfl
    | cons y b => have := congrArg List.length h; simp at this
  | cons x a ih =>
    cases b with
    | nil => have := congrArg List.length h; simp at this
    | cons y b =>
      rw [bitsOf_cons, bitsOf_cons] at h
      obtain ⟨h1, h2⟩ := List.append_inj h (by simp)
      have := congrArg num h1
      rw [low_num x.toNat_lt, low_num y.toNat_lt] at this
      rw [ih h2, UInt8.toNat_inj.mp this]

/-! ### The growing buffer -/

/-- The state of a buffer that is not NULL. -/
def Model.Sb.Inv (s : Sb) : Prop := s.cells.length < s.cap

theorem sb_push {s : Sb} (hs : s.Inv) (hl : s.cells.length ≤ 1000000000) (v : UInt8) :
    Ok (s.push v) fun r => r.cells = s.cells ++ [v] ∧ r.Inv ∧ s.cap ≤ r.cap := by
  have h1 : s.cells.length < s.cap := hs
  rw [Sb.push, if_neg (by omega)]
  by_cases h : s.cells.length + 1 ≥ s.cap
  · rw [if_pos h, i32_ok (by constructor <;> omega), ok_bind, i32_ok (by constructor <;> omega), ok_bind]
    refine Ok.pure' ⟨rfl, ?_, ?_⟩
    · show (s.cells ++ [v]).length < (2 * (s.cap : Int) + 1).toNat
      simp
      omega
    · show s.cap ≤ (2 * (s.cap : Int) + 1).toNat
      omega
  · rw [if_neg h]
    refine Ok.pure ⟨rfl, ?_, le_rfl⟩
    show (s.cells ++ [v]).length < s.cap
    simp
    omega

theorem sb_first (v : UInt8) : Ok (Sb.push ⟨[], 0⟩ v) fun r => r.cells = [v] ∧ r.Inv :=
  Ok.pure ⟨rfl, by show 1 < 2; decide⟩

/-! ### The bit buffer -/

/-- The bits that have been written. -/
def Model.BitW.bits (w : BitW) : List Bool := bitsOf w.out.cells ++ low w.bitbuf w.bitcount

/-- The state between two codes. -/
structure Model.BitW.Inv (w : BitW) : Prop where
  sb : w.out.Inv
  few : w.bitcount < 8
  buf : w.bitbuf < 2 ^ w.bitcount

theorem flush_ok {w : BitW} (hs : w.out.Inv) (hb : w.bitbuf < 2 ^ w.bitcount)
    (hl : w.bits.length ≤ 8000000000) : Ok (stbiw_zlib_flushf w) fun r => r.Inv ∧ r.bits = w.bits := by
  have key : ∀ fuel (w : BitW), w.bitcount + 1 ≤ fuel → w.out.Inv → w.bitbuf < 2 ^ w.bitcount → w.bits.length ≤ 8000000000 →
      Ok (whileFuel fuel w fun w => do
        if w.bitcount ≥ 8 then do
          let out ← w.out.push (u8 w.bitbuf)
          pure (⟨out, w.bitbuf / 256, w.bitcount - 8⟩, false)
        else pure (w, true)) fun r => r.Inv ∧ r.bits = w.bits := by
    intro fuel
    induction fuel with
    | zero => intro w h; omega
    | succ fuel ih =>
      intro w hf hs hb hl
      rw [whileFuel]
      by_cases h : w.bitcount ≥ 8
      · simp only [h, if_true]
        have hl' : w.out.cells.length ≤ 1000000000 := by
          simp [BitW.bits] at hl
          omega
        obtain ⟨out, ho, hc, hi, -⟩ := sb_push hs hl' (u8 w.bitbuf)
        rw [ho]
        simp only [ok_bind, pure_bind', Bool.false_eq_true, if_false]
        have e : (⟨out, w.bitbuf / 256, w.bitcount - 8⟩ : BitW).bits = w.bits := by
          simp only [BitW.bits, hc, bitsOf_append, List.append_assoc]
          obtain ⟨k, hk⟩ : ∃ k, w.bitcount = 8 + k := ⟨w.bitcount - 8, by omega⟩
          rw [hk, low_append, Nat.add_sub_cancel_left]
          show _ ++ (bitsOfByte (u8 w.bitbuf) ++ [] ++ _) = _
          rw [bitsOfByte_u8]
          simp
        have hb' : w.bitbuf / 256 < 2 ^ (w.bitcount - 8) := by
          rw [Nat.div_lt_iff_lt_mul (by decide), show 256 = 2 ^ 8 from rfl, ← pow_add]
          rwa [Nat.sub_add_cancel h]
        rw [← e]
        refine ih ⟨out, w.bitbuf / 256, w.bitcount - 8⟩ ?_ hi hb' ?_
        · show w.bitcount - 8 + 1 ≤ fuel
          omega
        · rw [e]
          exact hl
      · simp only [h, if_false, pure_bind', if_true]
        exact Ok.pure ⟨⟨hs, by omega, hb⟩, rfl⟩
  exact key _ w le_rfl hs hb hl

theorem zadd_ok {w : BitW} (hw : w.Inv) {c k : Nat} (hc : c < 2 ^ k) (hk : k ≤ 20) (hl : w.bits.length ≤ 7000000000) :
    Ok (stbiw_zlib_add c k w) fun r => r.Inv ∧ r.bits = w.bits ++ low c k := by
  have hb := hw.buf
  have hbc := hw.few
  have h2 : c * 2 ^ w.bitcount < 2 ^ (w.bitcount + k) := by
    rw [pow_add, Nat.mul_comm]
    exact Nat.mul_lt_mul_of_pos_left hc (by positivity)
  have h3 : (2 : Nat) ^ (w.bitcount + k) ≤ 2 ^ 27 := Nat.pow_le_pow_right (by decide) (by omega)
  have h4 : (2 : Nat) ^ 27 = 134217728 := rfl
  have e : w.bitbuf ||| c * 2 ^ w.bitcount = w.bitbuf + c * 2 ^ w.bitcount := by
    rw [Nat.or_comm, Nat.mul_comm, ← Nat.two_pow_add_eq_or_of_lt hb, Nat.add_comm]
  have h5 : w.bitbuf + c * 2 ^ w.bitcount < 2 ^ (w.bitcount + k) := by
    have : (c + 1) * 2 ^ w.bitcount ≤ 2 ^ k * 2 ^ w.bitcount := Nat.mul_le_mul_right _ hc
    rw [pow_add, Nat.mul_comm (2 ^ w.bitcount)]
    rw [Nat.add_mul, Nat.one_mul] at this
    omega
  rw [stbiw_zlib_add, i32_ok (by constructor <;> omega), ok_bind, Int.toNat_natCast, e]
  have e2 : (⟨w.out, w.bitbuf + c * 2 ^ w.bitcount, w.bitcount + k⟩ : BitW).bits = w.bits ++ low c k := by
    simp only [BitW.bits]
    rw [low_add hb, List.append_assoc]
  refine (flush_ok (w := ⟨w.out, w.bitbuf + c * 2 ^ w.bitcount, w.bitcount + k⟩) hw.sb h5 ?_).mono fun r hr => ⟨hr.1, by rw [hr.2, e2]⟩
  rw [e2]
  simp
  omega

/-! ### Codes -/

theorem bitrev_lt (c k r j : Nat) (hr : r < 2 ^ j) : stbiw_zlib_bitrev c k r < 2 ^ (j + k) := by
  induction k generalizing c r j with
  | zero => exact hr
  | succ k ih =>
    rw [stbiw_zlib_bitrev]
    have := ih (c / 2) (2 * r + c % 2) (j + 1) (by rw [pow_succ]; omega)
    rwa [show j + 1 + k = j + (k + 1) by omega] at this

/-- The bits that are written for a literal, a length or the end of a block. -/
def symBits (n : Nat) : List Bool :=
  if n ≤ 143 then low (stbiw_zlib_bitrev (0x30 + n) 8 0) 8
  else if n ≤ 255 then low (stbiw_zlib_bitrev (0x190 + n - 144) 9 0) 9
  else if n ≤ 279 then low (stbiw_zlib_bitrev (n - 256) 7 0) 7
  else low (stbiw_zlib_bitrev (0xc0 + n - 280) 8 0) 8

theorem huff_ok {w : BitW} (hw : w.Inv) (n : Nat) (hl : w.bits.length ≤ 7000000000) :
    Ok (stbiw_zlib_huff n w) fun r => r.Inv ∧ r.bits = w.bits ++ symBits n := by
  have key : ∀ c k, k ≤ 20 → Ok (stbiw_zlib_huffa c k w) fun r => r.Inv ∧ r.bits = w.bits ++ low (stbiw_zlib_bitrev c k 0) k := by
    intro c k hk
    refine zadd_ok hw ?_ hk hl
    have := bitrev_lt c k 0 0 (by decide)
    rwa [Nat.zero_add] at this
  rw [stbiw_zlib_huff, symBits]
  split_ifs
  · exact key _ _ (by decide)
  · exact key _ _ (by decide)
  · exact key _ _ (by decide)
  · exact key _ _ (by decide)

theorem symBits_length (n : Nat) : 7 ≤ (symBits n).length ∧ (symBits n).length ≤ 9 := by
  rw [symBits]
  split_ifs <;> simp

theorem symBits_length_256 {n : Nat} (h : 256 ≤ n) : (symBits n).length ≤ 8 := by
  rw [symBits]
  split_ifs <;> simp <;> omega

/-- Whatever follows does not change what the first symbol is. -/
theorem fixedSym_append {l rest : List Bool} {s : Nat} (h : fixedSym l = some (s, [])) : fixedSym (l ++ rest) = some (s, rest) := by
  have take : ∀ k, k ≤ l.length → (l ++ rest).take k = l.take k := fun k hk => List.take_append_of_le_length hk
  have drop : ∀ k, l.drop k = [] → k ≤ l.length → (l ++ rest).drop k = rest := by
    intro k h1 h2
    rw [List.drop_append_of_le_length h2, h1, List.nil_append]
  rw [fixedSym] at h
  split_ifs at h with h1 h2 h3 h4
  · simp only [Option.some.injEq, Prod.mk.injEq] at h
    rw [fixedSym, if_pos (by rw [take _ h1.1]; exact ⟨by simp; omega, h1.2⟩), take _ h1.1, drop _ h.2 h1.1, h.1]
  · simp only [Option.some.injEq, Prod.mk.injEq] at h
    have hl : l.length ≥ 8 := h2.1
    rw [fixedSym, if_neg (by rw [take _ (by omega)]; intro hh; exact h1 ⟨by omega, hh.2⟩),
      if_pos (by rw [take _ h2.1]; exact ⟨by simp; omega, h2.2⟩), take _ h2.1, drop _ h.2 h2.1, h.1]
  · simp only [Option.some.injEq, Prod.mk.injEq] at h
    have hl : l.length ≥ 8 := h3.1
    rw [fixedSym, if_neg (by rw [take _ (by omega)]; intro hh; exact h1 ⟨by omega, hh.2⟩),
      if_neg (by rw [take _ (by omega)]; intro hh; exact h2 ⟨by omega, hh.2⟩),
      if_pos (by rw [take _ h3.1]; exact ⟨by simp; omega, h3.2⟩), take _ h3.1, drop _ h.2 h3.1, h.1]
  · simp only [Option.some.injEq, Prod.mk.injEq] at h
    have hl : l.length ≥ 9 := h4.1
    rw [fixedSym, if_neg (by rw [take _ (by omega)]; intro hh; exact h1 ⟨by omega, hh.2⟩),
      if_neg (by rw [take _ (by omega)]; intro hh; exact h2 ⟨by omega, hh.2⟩),
      if_neg (by rw [take _ (by omega)]; intro hh; exact h3 ⟨by omega, hh.2⟩),
      if_pos (by rw [take _ h4.1]; exact ⟨by simp; omega, h4.2⟩), take _ h4.1, drop _ h.2 h4.1, h.1]

theorem fixedSym_all : ∀ n < 288, fixedSym (symBits n) = some (n, []) := by decide +kernel

theorem fixedSym_symBits {n : Nat} (h : n < 288) (rest : List Bool) : fixedSym (symBits n ++ rest) = some (n, rest) :=
  fixedSym_append (fixedSym_all n h)

theorem dist_bits : ∀ j < 32, msb (low (stbiw_zlib_bitrev j 5 0) 5) = j := by decide +kernel

end FlatCV
