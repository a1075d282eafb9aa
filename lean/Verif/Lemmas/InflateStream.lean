/-
The bit stream of the decoder: its contents as a number, with zeros after the end.
-/
import Verif.Lemmas.InflateHuff

namespace FlatCV

open FlatCV.Model FlatCV.Png

/-- Between two operations. -/
structure WF (z : ZBuf) : Prop where
  pos : z.pos ≤ z.zin.length
  nonneg : 0 ≤ z.numBits
  le : z.numBits ≤ 32
  code : z.code < 2 ^ z.numBits.toNat

/-- The bits to come as a number, the next one is the least significant. -/
def Model.ZBuf.val (z : ZBuf) : Nat := z.code + num (bitsOf (z.zin.drop z.pos)) * 2 ^ z.numBits.toNat

/-- How many bits are to come. -/
def Model.ZBuf.left (z : ZBuf) : Nat := z.numBits.toNat + 8 * (z.zin.length - z.pos)

/-- Nothing but the bits changes. -/
structure Same (z z' : ZBuf) : Prop where
  zin : z'.zin = z.zin
  out : z'.out = z.out
  zout : z'.zout = z.zout
  grows : z'.grows = z.grows
  count : z'.count = z.count

theorem Same.refl (z : ZBuf) : Same z z := ⟨rfl, rfl, rfl, rfl, rfl⟩

theorem Same.trans {x y z : ZBuf} (h1 : Same x y) (h2 : Same y z) : Same x z :=
  ⟨h2.zin.trans h1.zin, h2.out.trans h1.out, h2.zout.trans h1.zout, h2.grows.trans h1.grows, h2.count.trans h1.count⟩

/-- `n` bits were read. -/
structure Adv (n : Nat) (z z' : ZBuf) : Prop where
  wf : WF z'
  same : Same z z'
  val : ZBuf.val z' = ZBuf.val z / 2 ^ n
  mod : (z'.numBits + n) % 8 = z.numBits % 8
  left : 32 + n ≤ ZBuf.left z → ZBuf.left z' + n = ZBuf.left z ∧ z'.hit = z.hit

theorem Adv.refl {z : ZBuf} (h : WF z) : Adv 0 z z := ⟨h, Same.refl z, by simp, by simp, fun _ => ⟨rfl, rfl⟩⟩

theorem Adv.trans {n m : Nat} {x y z : ZBuf} (h1 : Adv n x y) (h2 : Adv m y z) : Adv (n + m) x z := by
  refine ⟨h2.wf, h1.same.trans h2.same, ?_, ?_, ?_⟩
  · rw [h2.val, h1.val, Nat.div_div_eq_div_mul, pow_add]
  · have := h1.mod
    have := h2.mod
    push_cast
    omega
  · intro h
    obtain ⟨h3, h4⟩ := h1.left (by omega)
    obtain ⟨h5, h6⟩ := h2.left (by omega)
    exact ⟨by omega, h6.trans h4⟩

theorem Adv.val_le {n : Nat} {z z' : ZBuf} (h : Adv n z z') : ZBuf.val z' ≤ ZBuf.val z := by
  rw [h.val]
  exact Nat.div_le_self _ _

theorem num_byte (b : UInt8) : num (bitsOfByte b) = b.toNat := by
  rw [bitsOfByte_eq, low_num b.toNat_lt]

theorem num_bytes (b : UInt8) (l : List UInt8) : num (bitsOf (b :: l)) = b.toNat + num (bitsOf l) * 256 := by
  have : bitsOf (b :: l) = bitsOfByte b ++ bitsOf l := rfl
  rw [this, num_append, num_byte, bitsOfByte_eq, low_length, show (2 : Nat) ^ 8 = 256 from rfl]

theorem eof_iff (z : ZBuf) : z.eof = true ↔ z.zin.length ≤ z.pos := by rw [ZBuf.eof, decide_eq_true_eq]

theorem zget8_eof {z : ZBuf} (h : z.zin.length ≤ z.pos) : zget8 z = .ok (0, z) := by
  rw [zget8, if_pos ((eof_iff z).2 h)]
  rfl

theorem zget8_ok {z : ZBuf} (h : z.pos < z.zin.length) : zget8 z = .ok (z.zin[z.pos], { z with pos := z.pos + 1 }) := by
  rw [zget8, if_neg (by rw [eof_iff]; omega), rdIn_ok (List.getElem?_eq_getElem h)]
  rfl

theorem or_shift {a b n : Nat} (h : a < 2 ^ n) : a ||| b <<< n = a + b * 2 ^ n := by
  have := Nat.shiftLeft_add_eq_or_of_lt h b
  rw [Nat.or_comm, ← this, Nat.shiftLeft_eq, Nat.add_comm]

/-- One byte more in the buffer. -/
theorem fillStep_ok {z : ZBuf} (hz : WF z) (h24 : z.numBits ≤ 24) :
    Ok (fillStep z) (fun r => r.2 = !decide (r.1.numBits ≤ 24) ∧ r.1.numBits = z.numBits + 8 ∧ WF r.1 ∧ Same z r.1 ∧ r.1.val = z.val ∧
      r.1.hit = z.hit ∧ z.left ≤ r.1.left ∧ (r.1.left = z.left ∨ r.1.zin.length ≤ r.1.pos)) := by
  obtain ⟨n, hn⟩ : ∃ n : Nat, z.numBits = n := ⟨z.numBits.toNat, by have := hz.nonneg; omega⟩
  have hc := hz.code
  have hn24 : n ≤ 24 := by omega
  rw [hn, Int.toNat_natCast] at hc
  have hp : (2 : Nat) ^ (n + 8) ≤ 2 ^ 32 := Nat.pow_le_pow_right (by norm_num) (by omega)
  have hb : ∀ b : UInt8, z.code + b.toNat * 2 ^ n < 2 ^ (n + 8) := by
    intro b
    have := Nat.mul_le_mul_right (2 ^ n) (show b.toNat ≤ 255 by have := b.toNat_lt; omega)
    rw [pow_add]
    omega
  rw [fillStep, shl1, hn, if_pos (by omega), ok_bind, Int.toNat_natCast, Nat.shiftLeft_eq, Nat.one_mul, if_neg (by omega)]
  by_cases he : z.pos < z.zin.length
  · rw [zget8_ok he, ok_bind]
    refine Ok.pure' ?_
    have hb := hb z.zin[z.pos]
    simp only [hn, Int.toNat_natCast]
    rw [or_shift hc, Nat.mod_eq_of_lt (by omega)]
    refine ⟨trivial, trivial, ⟨?_, ?_, ?_, ?_⟩, ⟨rfl, rfl, rfl, rfl, rfl⟩, ?_, trivial, ?_, Or.inl ?_⟩
    · show z.pos + 1 ≤ z.zin.length
      omega
    · show (0 : Int) ≤ n + 8
      omega
    · show (n : Int) + 8 ≤ 32
      omega
    · exact hb
    · have hd := List.drop_eq_getElem_cons he
      rw [ZBuf.val, ZBuf.val, hn, hd, num_bytes]
      show _ + _ * 2 ^ (n + 8) = _ + _ * 2 ^ n
      rw [pow_add]
      ring
    · show z.numBits.toNat + (8 * (z.zin.length - z.pos)) ≤ (n + 8) + (8 * (z.zin.length - (z.pos + 1)))
      omega
    · show (n + 8) + (8 * (z.zin.length - (z.pos + 1))) = z.numBits.toNat + (8 * (z.zin.length - z.pos))
      omega
  · rw [zget8_eof (by omega), ok_bind]
    refine Ok.pure' ?_
    simp only [hn, Int.toNat_natCast]
    rw [or_shift hc, show (0 : UInt8).toNat = 0 from rfl, Nat.zero_mul, Nat.add_zero, Nat.mod_eq_of_lt (by rw [pow_add] at hp; omega)]
    refine ⟨trivial, trivial, ⟨hz.pos, ?_, ?_, ?_⟩, ⟨rfl, rfl, rfl, rfl, rfl⟩, ?_, trivial, ?_, Or.inr ?_⟩
    · show (0 : Int) ≤ n + 8
      omega
    · show (n : Int) + 8 ≤ 32
      omega
    · show z.code < 2 ^ (n + 8)
      rw [pow_add]
      omega
    · rw [ZBuf.val, ZBuf.val, hn]
      simp only
      rw [List.drop_of_length_le (by omega)]
      simp [bitsOf, num]
    · show z.numBits.toNat + (8 * (z.zin.length - z.pos)) ≤ (n + 8) + (8 * (z.zin.length - z.pos))
      omega
    · show z.zin.length ≤ z.pos
      omega

/-- After `fill_bits`. -/
structure Filled25 (z z' : ZBuf) : Prop where
  wf : WF z'
  same : Same z z'
  many : 25 ≤ z'.numBits
  mod : z'.numBits % 8 = z.numBits % 8
  val : z'.val = z.val
  hit : z'.hit = z.hit
  left : z.left ≤ z'.left
  eof : z'.left = z.left ∨ z'.zin.length ≤ z'.pos

theorem fill_bits_ok {z : ZBuf} (hz : WF z) (h24 : z.numBits ≤ 24) : Ok (fill_bits z) (Filled25 z) := by
  refine whileFuel_ok (fun y => y.numBits % 8 = z.numBits % 8 ∧ y.numBits ≤ 24 ∧ WF y ∧ Same z y ∧ y.val = z.val ∧ y.hit = z.hit ∧ z.left ≤ y.left ∧
    (y.left = z.left ∨ y.zin.length ≤ y.pos)) (fun y => (31 - y.numBits).toNat / 8) (Filled25 z)
    ⟨rfl, h24, hz, Same.refl z, rfl, rfl, le_rfl, Or.inl rfl⟩ (by have := hz.nonneg; omega) ?_
  rintro y ⟨hm, h1, h2, h3, h4, h5, h6, h7⟩
  have hnn := h2.nonneg
  refine (fillStep_ok h2 h1).mono ?_
  rintro ⟨r, b⟩ ⟨hb, hn, hw, hs, hv, hh, hl, he⟩
  simp only at hb hn hw hs hv hh hl he ⊢
  have hor : r.left = z.left ∨ r.zin.length ≤ r.pos := by
    rcases he with he | he
    · rcases h7 with h7 | h7
      · exact Or.inl (he.trans h7)
      · rw [ZBuf.left, ZBuf.left, hs.zin] at he
        rw [hs.zin]
        right
        have := h2.pos
        by_contra hc
        omega
    · exact Or.inr he
  by_cases h8 : r.numBits ≤ 24
  · rw [hb, decide_eq_true h8, Bool.not_true, if_neg (by simp)]
    exact ⟨⟨by omega, h8, hw, h3.trans hs, hv.trans h4, hh.trans h5, h6.trans hl, hor⟩, by omega⟩
  · rw [hb, decide_eq_false h8, Bool.not_false, if_pos rfl]
    exact ⟨hw, h3.trans hs, by omega, by omega, hv.trans h4, hh.trans h5, h6.trans hl, hor⟩

theorem Filled25.adv {z z' : ZBuf} (h : Filled25 z z') : Adv 0 z z' := by
  refine ⟨h.wf, h.same, by rw [h.val]; simp, by rw [← h.mod]; simp, fun hl => ⟨?_, h.hit⟩⟩
  rcases h.eof with he | he
  · exact he
  · have h1 := h.left
    have h2 : z'.left = z'.numBits.toNat + 8 * (z'.zin.length - z'.pos) := rfl
    have h3 := h.wf.le
    omega

theorem drop_adv {z : ZBuf} (hz : WF z) {n : Nat} (hn : (n : Int) ≤ z.numBits) : Adv n z (z.drop n) := by
  obtain ⟨m, hm⟩ : ∃ m : Nat, z.numBits = n + m := ⟨(z.numBits - n).toNat, by omega⟩
  have hm1 : (z.drop n).numBits = m := by rw [ZBuf.drop]; simp only; omega
  have hm2 : z.numBits.toNat = n + m := by omega
  have hc := hz.code
  rw [hm2] at hc
  have hle := hz.le
  have hv : (z.drop n).code = z.code / 2 ^ n := Nat.shiftRight_eq_div_pow _ _
  refine ⟨⟨hz.pos, by omega, by omega, ?_⟩, ⟨rfl, rfl, rfl, rfl, rfl⟩, ?_, by omega, fun _ => ⟨?_, rfl⟩⟩
  · rw [hm1, hv, Int.toNat_natCast]
    rw [Nat.div_lt_iff_lt_mul (by positivity), ← pow_add, Nat.add_comm]
    exact hc
  · rw [ZBuf.val, ZBuf.val, hm1, hm2, hv, Int.toNat_natCast]
    show _ + num (bitsOf (z.zin.drop z.pos)) * _ = _
    rw [pow_add, show num (bitsOf (z.zin.drop z.pos)) * (2 ^ n * 2 ^ m) = (num (bitsOf (z.zin.drop z.pos)) * 2 ^ m) * 2 ^ n by ring,
      Nat.add_mul_div_right _ _ (by positivity)]
  · show (z.drop n).numBits.toNat + 8 * (z.zin.length - z.pos) + n = z.numBits.toNat + 8 * (z.zin.length - z.pos)
    omega

/-- The low bits are in the buffer. -/
theorem code_mod {z : ZBuf} {n : Nat} (hn : (n : Int) ≤ z.numBits) : z.code % 2 ^ n = z.val % 2 ^ n := by
  rw [ZBuf.val, show z.numBits.toNat = n + (z.numBits.toNat - n) by omega, pow_add, ← Nat.mul_assoc,
    Nat.mul_right_comm, Nat.add_mul_mod_self_right]

theorem zreceive_ok {z : ZBuf} (hz : WF z) {n : Nat} (hn : n ≤ 25) :
    Ok (zreceive z n) (fun r => r.1 = z.val % 2 ^ n ∧ Adv n z r.2) := by
  have key : ∀ y : ZBuf, Adv 0 z y → (n : Int) ≤ y.numBits →
      Ok (Pure.pure (y.code &&& (1 <<< n - 1), y.drop n) : CM (Nat × ZBuf)) (fun r => r.1 = z.val % 2 ^ n ∧ Adv n z r.2) := by
    intro y hy hny
    refine Ok.pure' ⟨?_, ?_⟩
    · show y.code &&& (1 <<< n - 1) = _
      rw [Nat.one_shiftLeft, Nat.and_two_pow_sub_one_eq_mod, code_mod hny, hy.val, pow_zero, Nat.div_one]
    · have := hy.trans (drop_adv hy.wf hny)
      rwa [Nat.zero_add] at this
  rw [zreceive]
  by_cases h : z.numBits < n
  · rw [if_pos h]
    refine Ok.bind (fill_bits_ok hz (by omega)) ?_
    intro y hy
    exact key y hy.adv (by have := hy.many; omega)
  · rw [if_neg h]
    exact key z (Adv.refl hz) (by omega)

/-! ### Symbols -/

theorem Tab.fast_some {lens : List Nat} {h : ZHuff} (ht : Tab lens h) {v f : Nat} (hf : h.fast[v % 512]? = some (some f)) (h0 : f ≠ 0) :
    ∃ i, Starts lens (rev v 16) i ∧ f = lens.getD i 0 * 512 + i := by
  obtain ⟨g, h1, h2⟩ := ht.fast (v % 512) (Nat.mod_lt _ (by norm_num))
  rw [hf] at h1
  cases Option.some.inj (Option.some.inj h1)
  rcases h2 with ⟨h2, _⟩ | ⟨i, hi, hi0, hi9, hr, hv⟩
  · exact absurd h2 h0
  · refine ⟨i, ⟨hi, hi0, by omega, ?_⟩, hv⟩
    rw [show (512 : Nat) = 2 ^ 9 from rfl, rev_mod v hi9] at hr
    rw [← rev_div v (by omega), hr]

theorem Tab.fast_zero {lens : List Nat} {h : ZHuff} (ht : Tab lens h) {v : Nat} (hf : h.fast[v % 512]? = some (some 0)) :
    codeEnd lens 9 ≤ rev v 16 := by
  obtain ⟨g, h1, h2⟩ := ht.fast (v % 512) (Nat.mod_lt _ (by norm_num))
  rw [hf] at h1
  cases Option.some.inj (Option.some.inj h1)
  by_contra hlt
  obtain ⟨i, hs, h9⟩ := exists_starts_le (show 9 ≤ 15 by norm_num) (not_le.1 hlt)
  rcases h2 with ⟨_, h2⟩ | ⟨i, hi, hi0, hi9, hr, hv⟩
  · refine h2 i hs.1 hs.2.1 h9 ?_
    rw [show (512 : Nat) = 2 ^ 9 from rfl, rev_mod v h9, rev_div v (show lens.getD i 0 ≤ 16 by omega), hs.2.2.2]
  · omega

/-- A symbol was read, or there is none. -/
def Decoded (lens : List Nat) (z : ZBuf) (r : Option Nat × ZBuf) : Prop :=
  match r.1 with
  | some i => Starts lens (rev z.val 16) i ∧ Adv (lens.getD i 0) z r.2
  | none => Adv 0 z r.2 ∧ (32 ≤ z.left → ∀ i, ¬ Starts lens (rev z.val 16) i)

theorem slowpath_ok {lens : List Nat} {h : ZHuff} (ht : Tab lens h) {z : ZBuf} (hz : WF z) (h16 : 16 ≤ z.numBits)
    (h9 : codeEnd lens 9 ≤ rev z.val 16) : Ok (decode_slowpath z h) (Decoded lens z) := by
  have hk : rev z.code 16 = rev z.val 16 := by
    rw [← rev_mod z.code (le_refl 16), code_mod (by omega), rev_mod _ le_rfl]
  have hlt : rev z.val 16 < 65536 := rev_lt _ 16
  rw [decode_slowpath, bit_reverse_ok le_rfl, ok_bind, hk]
  generalize hkk : rev z.val 16 = k at *
  have hloop := whileFuel_ok (fuel := 8) (s := 10) (step := fun s => do
      let m ← rd h.maxcode s
      if k < m then (Pure.pure (s, true) : CM _) else Pure.pure (s + 1, false))
    (fun s => 10 ≤ s ∧ s ≤ 16 ∧ codeEnd lens (s - 1) ≤ k) (fun s => 16 - s)
    (fun s => 10 ≤ s ∧ s ≤ 16 ∧ codeEnd lens (s - 1) ≤ k ∧ (s ≤ 15 → k < codeEnd lens s))
    ⟨le_rfl, by norm_num, h9⟩ (by norm_num) ?_
  · refine Ok.bind hloop ?_
    rintro s ⟨hs10, hs16, hlow, hhigh⟩
    by_cases hs : 16 ≤ s
    · rw [if_pos hs]
      refine Ok.pure' ⟨Adv.refl hz, fun _ i hi => ?_⟩
      rw [hkk] at hi
      have h1 := hi.lt_end
      have h2 := codeEnd_mono lens hi.2.2.1 (by norm_num)
      have : s - 1 = 15 := by omega
      rw [this] at hlow
      omega
    · rw [if_neg hs]
      have hs15 : s ≤ 15 := by omega
      obtain ⟨i, hi, his⟩ := exists_starts hs15 (by omega) (hhigh hs15) hlow
      rw [rd_ok (ht.firstcode s (by omega) hs15), ok_bind, rd_ok (ht.firstsymbol s (by omega) hs15), ok_bind]
      have hp := symPos_lt lens hi.1 hi.2.1
      have hp2 := firstSym_le lens (lens.getD i 0 + 1)
      have hl := ht.length
      have hb : ((k >>> (16 - s) : Nat) : Int) - (firstCode lens s : Nat) + (firstSym lens s : Nat) = (symPos lens i : Nat) := by
        have := hi.2.2.2
        rw [his, codeOf, his] at this
        rw [Nat.shiftRight_eq_div_pow, this, symPos, his]
        push_cast
        ring
      simp only [hb]
      rw [if_neg (by omega), if_neg (by omega), Int.toNat_natCast, rd_ok (ht.size i hi.1 hi.2.1), ok_bind, if_neg (by simpa using his),
        rd_ok (ht.value i hi.1 hi.2.1), ok_bind]
      refine Ok.pure' ⟨by rw [hkk]; exact hi, ?_⟩
      rw [his]
      exact drop_adv hz (by omega)
  · rintro s ⟨h1, h2, h3⟩
    by_cases hs : s = 16
    · subst hs
      rw [rd_ok ht.maxcode16, ok_bind, if_pos hlt]
      exact Ok.pure' ⟨h1, h2, h3, fun h => by omega⟩
    · rw [rd_ok (ht.maxcode s (by omega) (by omega)), ok_bind]
      by_cases hc : k < codeEnd lens s
      · rw [if_pos hc]
        exact Ok.pure' ⟨h1, h2, h3, fun _ => hc⟩
      · rw [if_neg hc]
        refine Ok.pure' ?_
        exact ⟨⟨by omega, by omega, by simpa using hc⟩, by omega⟩

theorem moreBits_ok {z : ZBuf} (hz : WF z) :
    Ok (moreBits z) (fun r => Adv 0 z r.2 ∧ (r.1 = true → 16 ≤ r.2.numBits) ∧ (32 ≤ z.left → r.1 = true)) := by
  rw [moreBits]
  by_cases h : z.numBits < 16
  · rw [if_pos h]
    by_cases he : z.eof = true
    · rw [if_pos he]
      rw [eof_iff] at he
      have hsmall : ¬ 32 ≤ z.left := by rw [ZBuf.left]; omega
      by_cases hh : z.hit = true
      · rw [if_pos hh]
        exact Ok.pure' ⟨Adv.refl hz, fun h => by simp at h, fun h => absurd h hsmall⟩
      · rw [if_neg hh]
        have hnn := hz.nonneg
        have hc := hz.code
        have hc2 : z.code < 2 ^ (z.numBits + 16).toNat := lt_of_lt_of_le hc (Nat.pow_le_pow_right (by norm_num) (by omega))
        refine Ok.pure' ⟨⟨⟨hz.pos, ?_, ?_, hc2⟩, ⟨rfl, rfl, rfl, rfl, rfl⟩, ?_, ?_, fun h => absurd h hsmall⟩, fun _ => ?_, fun h => absurd h hsmall⟩
        · show 0 ≤ z.numBits + 16
          omega
        · show z.numBits + 16 ≤ 32
          omega
        · rw [ZBuf.val, ZBuf.val]
          simp only
          rw [List.drop_of_length_le he]
          simp [bitsOf, num]
        · show (z.numBits + 16 + (0 : Nat)) % 8 = z.numBits % 8
          omega
        · show 16 ≤ z.numBits + 16
          omega
    · rw [if_neg he]
      refine Ok.bind (fill_bits_ok hz (by omega)) ?_
      intro y hy
      exact Ok.pure' ⟨hy.adv, fun _ => by have := hy.many; simp only; omega, fun _ => rfl⟩
  · rw [if_neg h]
    exact Ok.pure' ⟨Adv.refl hz, fun _ => by simp only; omega, fun _ => rfl⟩

/-- Reading a symbol is defined and finds the symbol whose code comes next. -/
theorem zhuffman_decode_ok {lens : List Nat} {h : ZHuff} (ht : Tab lens h) {z : ZBuf} (hz : WF z) :
    Ok (zhuffman_decode z h) (Decoded lens z) := by
  rw [zhuffman_decode]
  refine Ok.bind (moreBits_ok hz) ?_
  rintro ⟨more, y⟩ ⟨hy, h16, h32⟩
  simp only at hy h16 h32 ⊢
  cases more with
  | false => exact Ok.pure' ⟨hy, fun h => by have := h32 h; simp at this⟩
  | true =>
    rw [if_pos rfl]
    have h16 := h16 rfl
    have hvy : y.val = z.val := by rw [hy.val, pow_zero, Nat.div_one]
    have hidx : y.code &&& 511 = z.val % 512 := by
      rw [show (511 : Nat) = 2 ^ 9 - 1 from rfl, Nat.and_two_pow_sub_one_eq_mod, code_mod (by omega), hvy, show (2 : Nat) ^ 9 = 512 from rfl]
    obtain ⟨f, hf, _⟩ := ht.fast (z.val % 512) (Nat.mod_lt _ (by norm_num))
    rw [hidx, rd_ok hf, ok_bind]
    by_cases h0 : f = 0
    · subst h0
      rw [if_neg (by simp)]
      have h9 := ht.fast_zero hf
      rw [← hvy] at h9
      refine (slowpath_ok ht hy.wf h16 h9).mono ?_
      rintro ⟨r, x⟩ hr
      cases r with
      | none =>
        refine ⟨by have := hy.trans hr.1; rwa [Nat.zero_add] at this, fun h i hi => ?_⟩
        have := hy.left h
        rw [← hvy] at hi
        exact hr.2 (by omega) i hi
      | some i =>
        refine ⟨by have := hr.1; rwa [hvy] at this, ?_⟩
        have := hy.trans hr.2
        rwa [Nat.zero_add] at this
    · rw [if_pos h0]
      obtain ⟨i, hi, hv⟩ := ht.fast_some hf h0
      have hl := ht.length
      have hi1 := hi.1
      have h15 := ht.le15 i
      have hand : f &&& 511 = i := by
        rw [show (511 : Nat) = 2 ^ 9 - 1 from rfl, Nat.and_two_pow_sub_one_eq_mod, hv]
        omega
      have hsh : f >>> 9 = lens.getD i 0 := by
        rw [Nat.shiftRight_eq_div_pow, hv]
        omega
      rw [hand, hsh]
      refine Ok.pure' ⟨hi, ?_⟩
      have := hy.trans (drop_adv hy.wf (n := lens.getD i 0) (by omega))
      rwa [Nat.zero_add] at this

end FlatCV
