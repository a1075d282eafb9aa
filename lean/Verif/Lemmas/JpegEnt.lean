/-
The JPEG decoder: the bits of the entropy-coded data.
-/
import Verif.Lemmas.JpegBits
import Verif.Lemmas.JpegCode
import Verif.Lemmas.PngCtx
import Verif.Lemmas.Exif
import Verif.Model.JpegLoad

namespace FlatCV
open Model Jpg

/-- The decoder in front of the bits `R`; the data end with marker `m`, after which the bytes `tail` follow. -/
structure EntOk (m : UInt8) (tail : List UInt8) (j : Ent) (R : List Bool) : Prop where
  ctx : CtxOk j.s
  held : ∃ (B : List Bool) (pend : List UInt8) (z : Nat), j.bits = B.length ∧ B.length ≤ 32 ∧ j.buf = Jpg.value B * 2 ^ (32 - B.length) ∧
    B ++ bitsOf pend = R ++ List.replicate z false ∧
    ((j.nomore = false ∧ z = 0 ∧ Ctx.rem j.s = stuff pend ++ 0xFF :: m :: tail ∧ j.marker = 0xFF) ∨
      (j.nomore = true ∧ pend = [] ∧ Ctx.rem j.s = tail ∧ j.marker = m.toNat))

theorem value_zeros (z : Nat) : Jpg.value (List.replicate z false) = 0 := by
  induction z with
  | zero => rfl
  | succ z ih =>
    rw [List.replicate_succ', value_append, ih]
    rfl

theorem jor_shift (v b n : Nat) (h : n ≤ 24) (hb : b < 256) : (v * 2 ^ (32 - n)) ||| (b <<< (24 - n)) = (v * 256 + b) * 2 ^ (24 - n) := by
  rw [Nat.shiftLeft_eq, show (32 - n) = 8 + (24 - n) by omega, pow_add, ← mul_assoc, ← Nat.shiftLeft_eq, ← Nat.shiftLeft_eq b, ← Nat.shiftLeft_or_distrib, Nat.shiftLeft_eq]
  congr 1
  rw [show (2 : Nat) ^ 8 = 256 by norm_num, show v * 256 = v <<< 8 by rw [Nat.shiftLeft_eq]]
  rw [← Nat.shiftLeft_add_eq_or_of_lt hb]

theorem pushByte_ok {j : Ent} {B : List Bool} (hb : j.bits = B.length) (h24 : B.length ≤ 24) (hbuf : j.buf = Jpg.value B * 2 ^ (32 - B.length)) (b : UInt8) :
    ∃ j', pushByte j b.toNat = .ok j' ∧ j'.bits = (B ++ msb b.toNat 8).length ∧ j'.buf = Jpg.value (B ++ msb b.toNat 8) * 2 ^ (32 - (B ++ msb b.toNat 8).length) ∧
      j'.s = j.s ∧ j'.nomore = j.nomore ∧ j'.marker = j.marker := by
  unfold pushByte
  rw [if_pos (by omega)]
  refine ⟨_, rfl, by simp [hb], ?_, rfl, rfl, rfl⟩
  have hlt := b.toNat_lt
  simp only [hb, hbuf, List.length_append, msb_length]
  rw [show (24 - (B.length : Int)).toNat = 24 - B.length by omega, jor_shift _ _ _ h24 (by omega), value_append, msb_length, value_msb,
    Nat.mod_eq_of_lt (by omega), show 32 - (B.length + 8) = 24 - B.length by omega]
  norm_num

theorem jbits_cons (a : UInt8) (l : List UInt8) : bitsOf (a :: l) = msb a.toNat 8 ++ bitsOf l := rfl

theorem msb_zero8 : msb (0 : UInt8).toNat 8 = List.replicate 8 false := by decide

theorem growStep_ok {m : UInt8} (hm : m ≠ 0) (hm' : m ≠ 0xFF) {tail : List UInt8} {j : Ent} {R : List Bool} (h : EntOk m tail j R) (h24 : j.bits ≤ 24) :
    ∃ j' st, growStep j = .ok (j', st) ∧ EntOk m tail j' R ∧ j'.s.file = j.s.file ∧
      ((st = false ∧ j'.bits = j.bits + 8) ∨ (st = true ∧ (R.length : Int) ≤ j'.bits ∧ j'.bits = j.bits)) := by
  obtain ⟨hc, B, pend, z, h1, h2, h3, h4, h5⟩ := h
  have hB : B.length ≤ 24 := by omega
  unfold growStep
  rcases h5 with ⟨hn, hz, hrem, hmk⟩ | ⟨hn, hp, hrem, hmk⟩
  · rw [if_neg (by rw [hn]; decide)]
    subst hz
    rw [List.replicate_zero, List.append_nil] at h4
    obtain ⟨g1, g2⟩ := get8_next hc
    rw [hrem] at g1 g2
    cases pend with
    | nil =>
      have g1' : (get8 j.s).1 = 0xFF := g1
      rw [if_pos g1']
      obtain ⟨g3, g4⟩ := get8_next g2.ok
      rw [g2.rem] at g3 g4
      have g3' : (get8 (get8 j.s).2).1 = m := g3
      have g4' : Next (get8 j.s).2 (get8 (get8 j.s).2).2 tail := g4
      have e : afterFF j.s.fuel (get8 j.s).2 = .ok (get8 (get8 j.s).2) := by
        rw [Ctx.fuel, show j.s.buf.length + j.s.file.length + 2 = (j.s.buf.length + j.s.file.length + 1) + 1 from rfl, afterFF, if_neg (by rw [g3']; exact hm')]
      rw [e, ok_bind]
      dsimp only
      rw [g3', if_pos hm]
      have hl : B = R := by rw [← h4]; simp [bitsOf]
      refine ⟨_, _, rfl, ⟨g4'.ok, B, [], 0, h1, h2, h3, by rw [h4]; simp, Or.inr ⟨rfl, rfl, g4'.rem, rfl⟩⟩, ?_, Or.inr ⟨rfl, ?_, rfl⟩⟩
      · exact g4'.file.trans g2.file
      · dsimp only
        rw [h1, hl]
    | cons a pend =>
      by_cases ha : a = 0xFF
      · subst ha
        have g1' : (get8 j.s).1 = 0xFF := g1
        have g2' : Next j.s (get8 j.s).2 (0 :: (stuff pend ++ 0xFF :: m :: tail)) := g2
        rw [if_pos g1']
        obtain ⟨g3, g4⟩ := get8_next g2'.ok
        rw [g2'.rem] at g3 g4
        have g3' : (get8 (get8 j.s).2).1 = 0 := g3
        have g4' : Next (get8 j.s).2 (get8 (get8 j.s).2).2 (stuff pend ++ 0xFF :: m :: tail) := g4
        have e : afterFF j.s.fuel (get8 j.s).2 = .ok (get8 (get8 j.s).2) := by
          rw [Ctx.fuel, show j.s.buf.length + j.s.file.length + 2 = (j.s.buf.length + j.s.file.length + 1) + 1 from rfl, afterFF, if_neg (by rw [g3']; decide)]
        rw [e, ok_bind]
        dsimp only
        rw [g3', if_neg (by simp)]
        obtain ⟨j', e', k1, k2, k3, k4, k5⟩ := pushByte_ok (j := { j with s := (get8 (get8 j.s).2).2 }) h1 hB h3 (0xFF : UInt8)
        have e'' : pushByte { j with s := (get8 (get8 j.s).2).2 } 255 = .ok j' := e'
        rw [e'', ok_bind]
        refine ⟨_, _, rfl, ⟨by rw [k3]; exact g4'.ok, B ++ msb (0xFF : UInt8).toNat 8, pend, 0, k1, ?_, k2, ?_, Or.inl ⟨?_, rfl, ?_, ?_⟩⟩, ?_, Or.inl ⟨rfl, ?_⟩⟩
        · simp; omega
        · rw [List.append_assoc, ← jbits_cons, h4]; simp
        · rw [k4]; exact hn
        · rw [k3]; exact g4'.rem
        · rw [k5]; exact hmk
        · rw [k3]; exact g4'.file.trans g2'.file
        · rw [k1, h1]; simp
      · have hs : stuff (a :: pend) = a :: stuff pend := by
          unfold stuff
          rw [List.flatMap_cons, if_neg ha]
          rfl
        rw [hs] at g1 g2
        have g1' : (get8 j.s).1 = a := g1
        have g2' : Next j.s (get8 j.s).2 (stuff pend ++ 0xFF :: m :: tail) := g2
        rw [if_neg (by rw [g1']; exact ha), g1']
        obtain ⟨j', e', k1, k2, k3, k4, k5⟩ := pushByte_ok (j := { j with s := (get8 j.s).2 }) h1 hB h3 a
        rw [e', ok_bind]
        refine ⟨_, _, rfl, ⟨by rw [k3]; exact g2'.ok, B ++ msb a.toNat 8, pend, 0, k1, ?_, k2, ?_, Or.inl ⟨?_, rfl, ?_, ?_⟩⟩, ?_, Or.inl ⟨rfl, ?_⟩⟩
        · simp; omega
        · rw [List.append_assoc, ← jbits_cons, h4]; simp
        · rw [k4]; exact hn
        · rw [k3]; exact g2'.rem
        · rw [k5]; exact hmk
        · rw [k3]; exact g2'.file
        · rw [k1, h1]; simp
  · rw [if_pos hn]
    subst hp
    obtain ⟨j', e', k1, k2, k3, k4, k5⟩ := pushByte_ok h1 hB h3 (0 : UInt8)
    have e'' : pushByte j 0 = .ok j' := e'
    rw [e'', ok_bind]
    refine ⟨_, _, rfl, ⟨by rw [k3]; exact hc, B ++ msb (0 : UInt8).toNat 8, [], z + 8, k1, ?_, k2, ?_, Or.inr ⟨?_, rfl, ?_, ?_⟩⟩, by rw [k3], Or.inl ⟨rfl, ?_⟩⟩
    · simp; omega
    · rw [show bitsOf [] = [] from rfl, List.append_nil] at h4 ⊢
      rw [h4, msb_zero8, List.append_assoc, List.replicate_append_replicate]
    · rw [k4]; exact hn
    · rw [k3]; exact hrem
    · rw [k5]; exact hmk
    · rw [k1, h1]; simp

theorem grow_ok {m : UInt8} (hm : m ≠ 0) (hm' : m ≠ 0xFF) {tail : List UInt8} {j : Ent} {R : List Bool} (h : EntOk m tail j R) (h24 : j.bits ≤ 24) :
    ∃ j', grow j = .ok j' ∧ EntOk m tail j' R ∧ j'.s.file = j.s.file ∧ (25 ≤ j'.bits ∨ (R.length : Int) ≤ j'.bits) := by
  unfold grow
  have h0 : 0 ≤ j.bits := by
    obtain ⟨_, B, _, _, h1, _⟩ := h
    omega
  have key : ∀ (n : Nat) (j : Ent), EntOk m tail j R → 0 ≤ j.bits → j.bits ≤ 24 → 24 < j.bits + 8 * (n + 1) →
      ∃ j', whileFuel (n + 1) j (fun j => do
        let (j, stop) ← growStep j
        pure (j, stop || decide (24 < j.bits))) = .ok j' ∧ EntOk m tail j' R ∧ j'.s.file = j.s.file ∧ (25 ≤ j'.bits ∨ (R.length : Int) ≤ j'.bits) := by
    intro n
    induction n with
    | zero =>
      intro j h h0 h24 hn
      obtain ⟨j', st, e, k, kf, ks⟩ := growStep_ok hm hm' h h24
      refine ⟨j', ?_, k, kf, ?_⟩
      · refine whileFuel_stop ?_
        dsimp only
        rw [e, ok_bind]
        dsimp only
        rcases ks with ⟨rfl, ks⟩ | ⟨rfl, ks⟩
        · rw [decide_eq_true (by rw [ks]; push_cast at hn; omega)]; rfl
        · rfl
      · rcases ks with ⟨rfl, ks⟩ | ⟨rfl, ks⟩
        · left; push_cast at hn; omega
        · right; exact ks.1
    | succ n ih =>
      intro j h h0 h24 hn
      obtain ⟨j', st, e, k, kf, ks⟩ := growStep_ok hm hm' h h24
      by_cases hst : st = true ∨ 24 < j'.bits
      · refine ⟨j', ?_, k, kf, ?_⟩
        · refine whileFuel_stop ?_
          dsimp only
          rw [e, ok_bind]
          dsimp only
          rcases hst with rfl | hst
          · rfl
          · rw [decide_eq_true hst, Bool.or_true]; rfl
        · rcases ks with ⟨rfl, ks⟩ | ⟨rfl, ks⟩
          · left; simp at hst; omega
          · right; exact ks.1
      · have hst1 : st = false := by
          cases st
          · rfl
          · exact absurd (Or.inl rfl) hst
        subst hst1
        have hb : j'.bits ≤ 24 := by
          by_contra hc
          exact hst (Or.inr (by omega))
        have hks : j'.bits = j.bits + 8 := by
          rcases ks with ks | ks
          · exact ks.2
          · exact absurd ks.1 (by decide)
        obtain ⟨j2, e2, k2, kf2, ks2⟩ := ih j' k (by omega) hb (by push_cast at hn ⊢; omega)
        refine ⟨j2, ?_, k2, kf2.trans kf, ks2⟩
        rw [← e2]
        refine whileFuel_cont ?_
        dsimp only
        rw [e, ok_bind]
        dsimp only
        rw [decide_eq_false (by omega)]
        rfl
  exact key 4 j h h0 h24 (by push_cast; omega)

theorem need_ok {m : UInt8} (hm : m ≠ 0) (hm' : m ≠ 0xFF) {tail : List UInt8} {j : Ent} {R : List Bool} (h : EntOk m tail j R) {n : Nat} (hn : n ≤ 24) :
    ∃ j', need n j = .ok j' ∧ EntOk m tail j' R ∧ j'.s.file = j.s.file ∧ ((min n R.length : Nat) : Int) ≤ j'.bits := by
  unfold need
  split
  · rename_i hl
    obtain ⟨j', e, k, kf, kb⟩ := grow_ok hm hm' h (by omega)
    refine ⟨j', e, k, kf, ?_⟩
    omega
  · exact ⟨j, rfl, h, rfl, by omega⟩

/-- The bits at the front of the buffer. -/
theorem front_bits {m : UInt8} {tail : List UInt8} {j : Ent} {R : List Bool} (h : EntOk m tail j R) {n : Nat} (hn : (n : Int) ≤ j.bits) (hR : n ≤ R.length) :
    j.buf / 2 ^ (32 - n) = Jpg.value (R.take n) ∧ j.buf < 4294967296 := by
  obtain ⟨_, B, pend, z, h1, h2, h3, h4, _⟩ := h
  have hB : B.take n = R.take n := by
    have := congrArg (List.take n) h4
    rwa [List.take_append_of_le_length (by omega), List.take_append_of_le_length hR] at this
  have hv := value_append (B.take n) (B.drop n)
  rw [List.take_append_drop, List.length_drop] at hv
  have hlt := value_lt (B.drop n)
  rw [List.length_drop] at hlt
  constructor
  · rw [h3, ← hB, show 32 - n = (B.length - n) + (32 - B.length) by omega, pow_add, Nat.mul_div_mul_right _ _ (by positivity), hv,
      Nat.add_comm, Nat.add_mul_div_right _ _ (by positivity), Nat.div_eq_of_lt hlt, Nat.zero_add]
  · rw [h3]
    have := value_lt B
    calc Jpg.value B * 2 ^ (32 - B.length) < 2 ^ B.length * 2 ^ (32 - B.length) := Nat.mul_lt_mul_of_pos_right this (by positivity)
      _ = 2 ^ 32 := by rw [← pow_add]; congr 1; omega
      _ = 4294967296 := by norm_num

theorem buf_lt {m : UInt8} {tail : List UInt8} {j : Ent} {R : List Bool} (h : EntOk m tail j R) : j.buf < 4294967296 := by
  refine (front_bits h (n := 0) ?_ (by omega)).2
  obtain ⟨_, B, pend, z, h1, _⟩ := h
  rw [h1]
  omega

/-- Bits are taken. -/
theorem drop_ok {m : UInt8} {tail : List UInt8} {j : Ent} {R : List Bool} (h : EntOk m tail j R) {n : Nat} (hn : (n : Int) ≤ j.bits) (hR : n ≤ R.length) :
    EntOk m tail { j with buf := j.buf <<< n % 4294967296, bits := j.bits - n } (R.drop n) := by
  obtain ⟨hc, B, pend, z, h1, h2, h3, h4, h5⟩ := h
  refine ⟨hc, B.drop n, pend, z, ?_, ?_, ?_, ?_, h5⟩
  · dsimp only
    rw [List.length_drop, h1]
    omega
  · rw [List.length_drop]
    omega
  · dsimp only
    have hv := value_append (B.take n) (B.drop n)
    rw [List.take_append_drop, List.length_drop] at hv
    have hlt := value_lt (B.drop n)
    rw [List.length_drop] at hlt
    rw [h3, Nat.shiftLeft_eq, hv, List.length_drop]
    have e : (Jpg.value (B.take n) * 2 ^ (B.length - n) + Jpg.value (B.drop n)) * 2 ^ (32 - B.length) * 2 ^ n =
        Jpg.value (B.drop n) * 2 ^ (32 - (B.length - n)) + 4294967296 * Jpg.value (B.take n) := by
      rw [mul_assoc, ← pow_add, show 32 - B.length + n = 32 - (B.length - n) by omega, add_mul, mul_assoc, ← pow_add,
        show B.length - n + (32 - (B.length - n)) = 32 by omega]
      ring
    rw [e, Nat.add_mul_mod_self_left, Nat.mod_eq_of_lt]
    calc Jpg.value (B.drop n) * 2 ^ (32 - (B.length - n)) < 2 ^ (B.length - n) * 2 ^ (32 - (B.length - n)) := Nat.mul_lt_mul_of_pos_right hlt (by positivity)
      _ = 2 ^ 32 := by rw [← pow_add]; congr 1; omega
      _ = 4294967296 := by norm_num
  · have := congrArg (List.drop n) h4
    rwa [List.drop_append_of_le_length (by omega), List.drop_append_of_le_length hR] at this

end FlatCV
