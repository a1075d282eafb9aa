/-
The bits of a JPEG file: what `stbiw__jpg_writeBits` writes is read back by the reader of Spec/Jpeg.lean.
-/
import Verif.Spec.Jpeg
import Verif.Model.Jpeg

namespace FlatCV
open Model Jpg

/-! ### Numbers and bits -/

theorem value_foldl (b : List Bool) (a : Nat) : b.foldl (fun a x => 2 * a + x.toNat) a = a * 2 ^ b.length + Jpg.value b := by
  unfold Jpg.value
  induction b generalizing a with
  | nil => simp
  | cons x b ih =>
    rw [List.foldl_cons, ih, List.foldl_cons, ih (2 * 0 + x.toNat), List.length_cons, pow_succ]
    ring

theorem value_append (a b : List Bool) : Jpg.value (a ++ b) = Jpg.value a * 2 ^ b.length + Jpg.value b := by
  conv_lhs => unfold Jpg.value
  rw [List.foldl_append, value_foldl]
  rfl

theorem value_lt (b : List Bool) : Jpg.value b < 2 ^ b.length := by
  induction b using List.reverseRecOn with
  | nil => simp [Jpg.value]
  | append_singleton b x ih =>
    rw [value_append, List.length_append, List.length_singleton, pow_add]
    have : Jpg.value [x] ≤ 1 := by cases x <;> decide
    omega

@[simp] theorem msb_length (v n : Nat) : (msb v n).length = n := by simp [msb]

theorem msb_succ (v n : Nat) : msb v (n + 1) = msb (v / 2) n ++ [v.testBit 0] := by
  unfold msb
  rw [List.range_succ_eq_map, List.reverse_cons, List.map_append, List.map_singleton, ← List.map_reverse, List.map_map]
  congr 1
  apply List.map_congr_left
  intro i _
  simp [Nat.testBit_succ]

theorem value_msb (v n : Nat) : Jpg.value (msb v n) = v % 2 ^ n := by
  induction n generalizing v with
  | zero => simp [msb, Jpg.value, Nat.mod_one]
  | succ n ih =>
    rw [msb_succ, value_append, ih]
    have h : Jpg.value [v.testBit 0] = v % 2 := by
      rw [Nat.testBit_zero]
      rcases Nat.mod_two_eq_zero_or_one v with h | h <;> rw [h] <;> decide
    rw [h, List.length_singleton, pow_one, pow_succ, mul_comm (2 ^ n) 2, Nat.mod_mul]
    omega

theorem msb_value (b : List Bool) : msb (Jpg.value b) b.length = b := by
  induction b using List.reverseRecOn with
  | nil => rfl
  | append_singleton b x ih =>
    have e : Jpg.value (b ++ [x]) = 2 * Jpg.value b + x.toNat := by
      rw [value_append, List.length_singleton, pow_one, mul_comm]
      cases x <;> rfl
    rw [e, List.length_append, List.length_singleton, msb_succ]
    have h1 : (2 * Jpg.value b + x.toNat) / 2 = Jpg.value b := by cases x <;> simp <;> omega
    have h2 : (2 * Jpg.value b + x.toNat).testBit 0 = x := by cases x <;> simp
    rw [h1, h2, ih]

theorem receive_msb {v n : Nat} (h : v < 2 ^ n) (rest : List Bool) : receive n (msb v n ++ rest) = some (v, rest) := by
  unfold receive
  rw [if_pos (by simp), List.take_append_of_le_length (by simp), List.take_of_length_le (by simp), value_msb, Nat.mod_eq_of_lt h,
    List.drop_append_of_le_length (by simp), List.drop_of_length_le (by simp), List.nil_append]

theorem jpgBitsOf_append (a b : List UInt8) : bitsOf (a ++ b) = bitsOf a ++ bitsOf b := List.flatMap_append

theorem bitsOf_byte {b : List Bool} (h : b.length = 8) : bitsOf [u8 (Jpg.value b)] = b := by
  have h1 := value_lt b
  rw [h] at h1
  unfold bitsOf
  rw [List.flatMap_singleton, show (u8 (Jpg.value b)).toNat = Jpg.value b by unfold u8; simp; omega, ← h, msb_value]

theorem jpgBitsOf_length (l : List UInt8) : (bitsOf l).length = 8 * l.length := by
  induction l with
  | nil => rfl
  | cons b l ih =>
    rw [show b :: l = [b] ++ l from rfl, jpgBitsOf_append, List.length_append, ih]
    simp [bitsOf]
    omega

/-! ### Stuffing -/

/-- The bytes with a zero after each FF. -/
def stuff (l : List UInt8) : List UInt8 := l.flatMap fun b => if b = 0xFF then [0xFF, 0] else [b]

theorem stuff_append (a b : List UInt8) : stuff (a ++ b) = stuff a ++ stuff b := List.flatMap_append

theorem unstuff_stuff (l : List UInt8) : unstuff (stuff l ++ [0xFF, 0xD9]) = some (l, [0xFF, 0xD9]) := by
  induction l with
  | nil => rfl
  | cons b l ih =>
    rw [show stuff (b :: l) = (if b = 0xFF then [0xFF, 0] else [b]) ++ stuff l from rfl, List.append_assoc]
    by_cases h : b = 0xFF
    · rw [if_pos h, h]
      show unstuff (0xFF :: 0 :: (stuff l ++ _)) = _
      conv_lhs => unfold unstuff
      simp only [if_true, ih, Option.map_some]
    · rw [if_neg h]
      show unstuff (b :: (stuff l ++ _)) = _
      conv_lhs => unfold unstuff
      simp only [if_neg h, ih, Option.map_some]

/-! ### The writer -/

/-- The bytes `pre` and then the bits `bits` have been given to the writer; `full` are the bytes already written and `rem` the bits that
are still waiting. -/
structure Held (w : JpgW) (pre : List UInt8) (full : List UInt8) (rem : List Bool) : Prop where
  out : w.out = pre ++ stuff full
  cnt : w.cnt = rem.length
  buf : w.buf % 2 ^ 24 = Jpg.value rem * 2 ^ (24 - w.cnt)
  lt : w.buf < 4294967296

/-- The bytes `pre` and then the bits `bits` have been given to the writer. -/
def Emitted (w : JpgW) (pre : List UInt8) (bits : List Bool) : Prop :=
  ∃ full rem, Held w pre full rem ∧ bits = bitsOf full ++ rem ∧ w.cnt < 8

theorem Emitted.start (pre : List UInt8) : Emitted ⟨pre, 0, 0⟩ pre [] :=
  ⟨[], [], ⟨by simp [stuff], rfl, by simp [Jpg.value], by norm_num⟩, rfl, by norm_num⟩

theorem jpgFlush_ok {w : JpgW} {pre full : List UInt8} {rem : List Bool} (h : Held w pre full rem) (h8 : 8 ≤ w.cnt) (h24 : w.cnt ≤ 24) :
    ∃ w', jpgFlush false w = .ok (w', false) ∧ Held w' pre (full ++ [u8 (Jpg.value (rem.take 8))]) (rem.drop 8) ∧ w'.cnt = w.cnt - 8 := by
  obtain ⟨ho, hc, hb, hl⟩ := h
  have hsplit : Jpg.value rem = Jpg.value (rem.take 8) * 2 ^ (w.cnt - 8) + Jpg.value (rem.drop 8) := by
    conv_lhs => rw [← List.take_append_drop 8 rem, value_append, List.length_drop, ← hc]
  have l1 := value_lt (rem.take 8)
  have l2 := value_lt (rem.drop 8)
  rw [List.length_take, min_eq_left (by omega)] at l1
  rw [List.length_drop, ← hc] at l2
  obtain ⟨k, hk⟩ : ∃ k, w.cnt = k + 8 := ⟨w.cnt - 8, by omega⟩
  rw [hk, Nat.add_sub_cancel] at hsplit l2
  have hk16 : k ≤ 16 := by omega
  -- the 24 bits of the buffer
  have hb2 : w.buf % 2 ^ 24 = Jpg.value (rem.take 8) * 2 ^ 16 + Jpg.value (rem.drop 8) * 2 ^ (16 - k) := by
    rw [hb, hsplit, hk, add_mul, mul_assoc, ← pow_add]
    congr 3 <;> omega
  have l3 : Jpg.value (rem.drop 8) * 2 ^ (16 - k) < 2 ^ 16 := by
    calc _ < 2 ^ k * 2 ^ (16 - k) := (Nat.mul_lt_mul_right (by positivity)).2 l2
      _ = 2 ^ 16 := by rw [← pow_add]; congr 1; omega
  have hc' : w.buf / 65536 % 256 = Jpg.value (rem.take 8) := by omega
  have hd : w.buf * 256 % 2 ^ 24 = Jpg.value (rem.drop 8) * 2 ^ (16 - k) * 256 := by omega
  refine ⟨⟨w.out ++ stuff [u8 (Jpg.value (rem.take 8))], u32 (w.buf * 256), w.cnt - 8⟩, ?_, ⟨?_, ?_, ?_, u32_lt _⟩, rfl⟩
  · unfold jpgFlush
    rw [if_pos h8, hc']
    simp only [shl8, Bool.false_eq_true, false_and, if_false, ok_bind]
    show Except.ok _ = _
    congr 3
    have e : (u8 (Jpg.value (rem.take 8)) = 0xFF) ↔ Jpg.value (rem.take 8) = 255 := by
      constructor
      · intro h
        have := congrArg UInt8.toNat h
        unfold u8 at this
        simp at this
        omega
      · intro h
        rw [h]
        rfl
    unfold stuff
    rw [List.flatMap_singleton]
    by_cases hv : Jpg.value (rem.take 8) = 255
    · rw [if_pos hv, if_pos (e.2 hv), List.append_assoc, e.2 hv]
      rfl
    · rw [if_neg hv, if_neg (fun h => hv (e.1 h))]
  · show w.out ++ _ = _
    rw [ho, stuff_append, List.append_assoc]
  · show w.cnt - 8 = _
    rw [List.length_drop, hc]
  · show u32 (w.buf * 256) % 2 ^ 24 = _
    have : u32 (w.buf * 256) % 2 ^ 24 = w.buf * 256 % 2 ^ 24 := by
      unfold u32
      omega
    rw [this, hd, hk, Nat.add_sub_cancel, show 24 - k = 16 - k + 8 by omega, pow_add]
    ring

theorem jpgFlushes_ok {fuel : Nat} {w : JpgW} {pre full : List UInt8} {rem : List Bool} (h : Held w pre full rem) (h24 : w.cnt ≤ 24)
    (hf : w.cnt < fuel) : ∃ w', whileFuel fuel w (jpgFlush false) = .ok w' ∧ Emitted w' pre (bitsOf full ++ rem) := by
  induction fuel generalizing w full rem with
  | zero => omega
  | succ n ih =>
    unfold whileFuel
    by_cases h8 : 8 ≤ w.cnt
    · obtain ⟨w1, h1, h2, h3⟩ := jpgFlush_ok h h8 h24
      rw [h1]
      obtain ⟨w2, h4, h5⟩ := ih h2 (by omega) (by omega)
      refine ⟨w2, h4, ?_⟩
      rw [jpgBitsOf_append, List.append_assoc] at h5
      have hl : (rem.take 8).length = 8 := by
        rw [List.length_take, ← h.cnt]
        omega
      rw [bitsOf_byte hl, List.take_append_drop] at h5
      exact h5
    · have : jpgFlush false w = .ok (w, true) := by
        unfold jpgFlush
        rw [if_neg h8]
        rfl
      rw [this]
      exact ⟨w, rfl, full, rem, h, rfl, by omega⟩

/-- `stbiw__jpg_writeBits` appends the bits. -/
theorem writeBits_ok {w : JpgW} {pre : List UInt8} {bits : List Bool} (h : Emitted w pre bits) {v n : Nat} (hv : v < 2 ^ n) (hn : n ≤ 16) :
    ∃ w', stbiw_jpg_writeBits false (v, n) w = .ok w' ∧ Emitted w' pre (bits ++ msb v n) := by
  obtain ⟨full, rem, ⟨ho, hc, hb, hl⟩, hbits, h8⟩ := h
  unfold stbiw_jpg_writeBits
  rw [if_neg (by simp only; omega)]
  have hs : v * 2 ^ (24 - (w.cnt + n)) < 2 ^ (24 - w.cnt) := by
    calc _ < 2 ^ n * 2 ^ (24 - (w.cnt + n)) := (Nat.mul_lt_mul_right (by positivity)).2 hv
      _ = 2 ^ (24 - w.cnt) := by rw [← pow_add]; congr 1; omega
  have hs24 : v * 2 ^ (24 - (w.cnt + n)) < 2 ^ 24 := lt_of_lt_of_le hs (Nat.pow_le_pow_right (by norm_num) (by omega))
  have hi : i32 ((v * 2 ^ (24 - (w.cnt + n)) : Nat) : Int) = .ok _ := i32_ok (by unfold IsI32; constructor <;> omega)
  simp only
  rw [hi]
  simp only [ok_bind, Int.toNat_natCast]
  have hheld : Held ⟨w.out, w.buf ||| v * 2 ^ (24 - (w.cnt + n)), w.cnt + n⟩ pre full (rem ++ msb v n) := by
    refine ⟨ho, ?_, ?_, ?_⟩
    · show w.cnt + n = _
      rw [List.length_append, msb_length, hc]
    · show (w.buf ||| _) % 2 ^ 24 = _ * 2 ^ (24 - (w.cnt + n))
      rw [Nat.or_mod_two_pow, hb, Nat.mod_eq_of_lt hs24, ← Nat.shiftLeft_eq, ← Nat.shiftLeft_add_eq_or_of_lt hs, Nat.shiftLeft_eq,
        value_append, value_msb, msb_length, Nat.mod_eq_of_lt hv, add_mul, mul_assoc, ← pow_add]
      congr 3
      omega
    · exact Nat.or_lt_two_pow (n := 32) hl (lt_of_lt_of_le hs24 (by norm_num))
  obtain ⟨w', h1, h2⟩ := jpgFlushes_ok hheld (by show w.cnt + n ≤ 24; omega) (fuel := w.cnt + n + 1) (by show w.cnt + n < _; omega)
  refine ⟨w', h1, ?_⟩
  rw [hbits, List.append_assoc]
  exact h2

/-- The end of the data: fewer than eight ones fill the last byte. -/
theorem Emitted.finish {w : JpgW} {pre : List UInt8} {bits : List Bool} (h : Emitted w pre bits) :
    ∃ w' data pad, stbiw_jpg_writeBits false (0x7F, 7) w = .ok w' ∧ w'.out = pre ++ stuff data ∧ bitsOf data = bits ++ pad ∧
      pad.length < 8 ∧ pad.all id = true := by
  obtain ⟨w', h1, full, rem, ⟨ho, hc, -, -⟩, h2, h8⟩ := writeBits_ok h (v := 0x7F) (n := 7) (by norm_num) (by norm_num)
  have hlen : bits.length + 7 = 8 * full.length + rem.length := by
    have := congrArg List.length h2
    rw [List.length_append, List.length_append, msb_length, jpgBitsOf_length] at this
    exact this
  have hle : bits.length ≤ (bitsOf full).length := by
    rw [jpgBitsOf_length]
    omega
  have hp : bits <+: bitsOf full := List.prefix_of_prefix_length_le ⟨_, rfl⟩ ⟨_, h2.symm⟩ hle
  obtain ⟨pad, hpad⟩ := hp
  refine ⟨w', full, pad, h1, ho, hpad.symm, ?_, ?_⟩
  · have := congrArg List.length hpad
    rw [List.length_append, jpgBitsOf_length] at this
    omega
  · rw [← hpad, List.append_assoc] at h2
    have h3 := List.append_cancel_left h2
    have h4 : (msb 0x7F 7).all id = true := by decide
    rw [h3, List.all_append, Bool.and_eq_true] at h4
    exact h4.1

end FlatCV
