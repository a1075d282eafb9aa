/-
The coding of one block of coefficients: what the writer emits, the reader of Spec/Jpeg.lean turns back into the coefficients.
-/
import Verif.Lemmas.JpegCode
import Verif.Lemmas.Trim

namespace FlatCV
open Model Jpg

/-! ### Sizes -/

theorem calcLoop {fuel m n : Nat} (hf : m < 2 ^ fuel) :
    ∃ k, whileFuel (fuel + 1) (m, n) calcStep = .ok (0, n + k) ∧ m < 2 ^ (k + 1) ∧ (m ≠ 0 → 2 ^ k ≤ m) := by
  induction fuel generalizing m n with
  | zero =>
    have : m = 0 := by simpa using hf
    subst this
    refine ⟨0, ?_, by norm_num, fun h => absurd rfl h⟩
    simp [whileFuel, calcStep, Pure.pure, Except.pure]
  | succ f ih =>
    unfold whileFuel
    by_cases h : m / 2 = 0
    · refine ⟨0, ?_, by simp; omega, fun h0 => by simp; omega⟩
      unfold calcStep
      simp only [h, ne_eq, not_true_eq_false, if_false]
      rfl
    · obtain ⟨k, h1, h2, h3⟩ := ih (m := m / 2) (n := n + 1) (by rw [pow_succ] at hf; omega)
      refine ⟨k + 1, ?_, by rw [pow_succ]; omega, fun _ => by have := h3 h; rw [pow_succ]; omega⟩
      have e : calcStep (m, n) = .ok ((m / 2, n + 1), false) := by
        unfold calcStep
        rw [if_pos h]
        rfl
      rw [e]
      show whileFuel (f + 1) (m / 2, n + 1) _ = _
      rw [h1]
      congr 2
      omega

/-- `stbiw__jpg_calcBits`: the number of bits of the value and bits that stand for it. -/
theorem calcBits_ok {val : Int} (h0 : val ≠ 0) {b : Nat} (hb : b ≤ 15) (h : |val| < 2 ^ b) :
    ∃ v n, stbiw_jpg_calcBits val = .ok (v, n) ∧ 1 ≤ n ∧ n ≤ b ∧ v < 2 ^ n ∧ Jpg.extend v n = val := by
  have hb' : (2 : ℤ) ^ b ≤ 32768 := by
    calc (2 : ℤ) ^ b ≤ 2 ^ 15 := pow_le_pow_right₀ (by norm_num) hb
      _ = 32768 := by norm_num
  obtain ⟨a1, a2⟩ := abs_lt.1 h
  obtain ⟨m, hm⟩ : ∃ m : Nat, |val| = m := ⟨val.natAbs, (Int.natCast_natAbs val).symm⟩
  have hmb : m < 2 ^ b := by
    rw [hm] at h
    exact_mod_cast h
  have hm32 : m < 2 ^ 32 := lt_of_lt_of_le hmb (Nat.pow_le_pow_right (by norm_num) (by omega))
  have hm0 : m ≠ 0 := by
    rintro rfl
    exact h0 (abs_eq_zero.1 (by simpa using hm))
  obtain ⟨k, k1, k2, k3⟩ := calcLoop (n := 1) hm32
  have k3 := k3 hm0
  have hkb : k < b := by
    rw [← Nat.pow_lt_pow_iff_right (a := 2) (by norm_num)]
    omega
  have hpk : 2 ^ (k + 1) ≤ 2 ^ 15 := Nat.pow_le_pow_right (by norm_num) (by omega)
  have hpow : ((2 ^ (1 + k) : ℕ) : ℤ) = 2 * 2 ^ k := by
    rw [Nat.add_comm, pow_succ]
    push_cast
    ring
  have hpi : IsI32 ((2 ^ (1 + k) : ℕ) : ℤ) := by
    rw [Nat.add_comm 1 k]
    have : 2 ^ 15 = 32768 := by norm_num
    constructor <;> omega
  have hmod : (1 + k) % 65536 = 1 + k := by omega
  unfold stbiw_jpg_calcBits calcAbs calcVal
  by_cases hneg : val < 0
  · have hv : val = -(m : ℤ) := by rw [abs_of_neg hneg] at hm; omega
    rw [if_pos hneg, if_pos hneg, i32_ok (z := -val) (by constructor <;> omega), i32_ok (z := val - 1) (by constructor <;> omega)]
    simp only [ok_bind]
    rw [show (-val).toNat = m by omega, k1]
    simp only [ok_bind]
    rw [i32_ok hpi]
    simp only [ok_bind]
    have hr : (val - 1) % ((2 ^ (1 + k) : ℕ) : ℤ) = 2 * 2 ^ k - 1 - m := by
      rw [hpow]
      zify at k2 k3
      rw [pow_succ] at k2
      rw [show val - 1 = (2 * 2 ^ k - 1 - m) + (2 * 2 ^ k) * (-1) by rw [hv]; ring, Int.add_mul_emod_self_left,
        Int.emod_eq_of_lt (by omega) (by omega)]
    refine ⟨2 ^ (k + 1) - 1 - m, 1 + k, ?_, by omega, by omega, ?_, ?_⟩
    · rw [hr, hmod]
      show Except.ok _ = _
      congr 2
      have : (2 * 2 ^ k - 1 - (m : ℤ)).toNat = 2 ^ (k + 1) - 1 - m := by
        rw [pow_succ]
        have e : ((2 ^ k : ℕ) : ℤ) = 2 ^ k := by push_cast; rfl
        rw [← e]
        omega
      rw [this]
      have : 2 ^ 15 = 32768 := by norm_num
      omega
    · rw [Nat.add_comm 1 k]
      omega
    · unfold Jpg.extend
      rw [Nat.add_sub_cancel_left, if_pos (by rw [pow_succ]; omega), hv, Nat.add_comm 1 k]
      rw [show ((2 ^ (k + 1) - 1 - m : ℕ) : ℤ) = 2 ^ (k + 1) - 1 - m by
        rw [Nat.cast_sub (by omega), Nat.cast_sub (by omega)]
        push_cast
        ring]
      ring
  · have hv : val = (m : ℤ) := by rw [abs_of_nonneg (by omega)] at hm; omega
    rw [if_neg hneg, if_neg hneg]
    simp only [pure_bind']
    rw [show val.toNat = m by omega, k1]
    simp only [ok_bind]
    rw [i32_ok hpi]
    simp only [ok_bind]
    have hr : val % ((2 ^ (1 + k) : ℕ) : ℤ) = m := by
      rw [hv, Nat.add_comm 1 k]
      norm_cast
      exact Nat.mod_eq_of_lt k2
    refine ⟨m, 1 + k, ?_, by omega, by omega, by rw [Nat.add_comm 1 k]; exact k2, ?_⟩
    · rw [hr, hmod]
      show Except.ok _ = _
      congr 2
      have : 2 ^ 15 = 32768 := by norm_num
      rw [Int.toNat_natCast]
      omega
    · unfold Jpg.extend
      rw [Nat.add_sub_cancel_left, if_neg (by omega), hv]

/-! ### Writing words -/

theorem write_coded {ht : List (Nat × Nat)} {t : Code} {sym : Nat} (hc : Coded ht t sym) {w : JpgW} {pre : List UInt8} {bits : List Bool}
    (h : Emitted w pre bits) {α : Type} (k : JpgW → CM α) :
    ∃ w' E, (rdIn ht sym >>= fun p => stbiw_jpg_writeBits false p w >>= k) = k w' ∧ Emitted w' pre (bits ++ E) ∧
      ∀ rest, symbol t (E ++ rest) = some (sym, rest) := by
  obtain ⟨v, n, h1, h2, h3, h4⟩ := hc
  obtain ⟨w', h5, h6⟩ := writeBits_ok h h2 h3
  exact ⟨w', msb v n, by rw [h1, ok_bind, h5, ok_bind], h6, h4⟩

theorem write_coded' {ht : List (Nat × Nat)} {t : Code} {sym : Nat} (hc : Coded ht t sym) {w : JpgW} {pre : List UInt8} {bits : List Bool}
    (h : Emitted w pre bits) :
    ∃ p w' E, rdIn ht sym = .ok p ∧ stbiw_jpg_writeBits false p w = .ok w' ∧ Emitted w' pre (bits ++ E) ∧
      ∀ rest, symbol t (E ++ rest) = some (sym, rest) := by
  obtain ⟨v, n, h1, h2, h3, h4⟩ := hc
  obtain ⟨w', h5, h6⟩ := writeBits_ok h h2 h3
  exact ⟨(v, n), w', msb v n, h1, h5, h6, h4⟩

/-! ### DC -/

theorem jpgDC_ok {htdc htac : List (Nat × Nat)} {dc ac : Code} (ht : Tabs htdc htac dc ac) {diff : Int} (hd : |diff| < 2048) {w : JpgW}
    {pre : List UInt8} {bits : List Bool} (h : Emitted w pre bits) :
    ∃ w' E, jpgDC false diff htdc w = .ok w' ∧ Emitted w' pre (bits ++ E) ∧ ∀ rest, decodeDC dc (E ++ rest) = some (diff, rest) := by
  unfold jpgDC
  by_cases h0 : diff = 0
  · obtain ⟨p, w', E, h1, h2, h3, h4⟩ := write_coded' (ht.dc 0 (by norm_num)) h
    refine ⟨w', E, by rw [if_pos h0, h1, ok_bind, h2], h3, fun rest => ?_⟩
    unfold decodeDC
    rw [h4]
    simp [receive, h0]
  · obtain ⟨v, n, c1, c2, c3, c4, c5⟩ := calcBits_ok h0 (b := 11) (by norm_num) (by norm_num; exact hd)
    obtain ⟨p, w1, E1, h1, h2, h3, h4⟩ := write_coded' (ht.dc n (by omega)) h
    obtain ⟨w2, h5, h6⟩ := writeBits_ok h3 c4 (by omega)
    refine ⟨w2, E1 ++ msb v n, ?_, by rw [← List.append_assoc]; exact h6, fun rest => ?_⟩
    · rw [if_neg h0, c1]
      simp only [ok_bind]
      rw [h1]
      simp only [ok_bind]
      rw [h2]
      simp only [ok_bind]
      exact h5
    · unfold decodeDC
      rw [List.append_assoc, h4]
      simp only [Option.bind_eq_bind, Option.bind_some, receive_msb c4]
      rw [if_neg (by omega), c5]

/-! ### AC -/

theorem decodeAC_eob {t : Code} {E : List Bool} (hE : ∀ rest, symbol t (E ++ rest) = some (0, rest)) {f n : Nat} (hn : 0 < n) (hf : 0 < f)
    (rest : List Bool) : decodeAC t f n (E ++ rest) = some (List.replicate n 0, rest) := by
  obtain ⟨n, rfl⟩ : ∃ m, n = m + 1 := ⟨n - 1, by omega⟩
  obtain ⟨f, rfl⟩ : ∃ m, f = m + 1 := ⟨f - 1, by omega⟩
  unfold decodeAC
  rw [hE]
  simp

theorem decodeAC_zrl {t : Code} {E : List Bool} (hE : ∀ rest, symbol t (E ++ rest) = some (0xF0, rest)) {f n : Nat} {rest rest' : List Bool}
    {l : List Int} (h : decodeAC t f n rest = some (l, rest')) :
    decodeAC t (f + 1) (n + 16) (E ++ rest) = some (List.replicate 16 0 ++ l, rest') := by
  unfold decodeAC
  rw [hE]
  simp only [Option.bind_eq_bind, Option.bind_some]
  rw [if_neg (by norm_num), if_pos trivial, if_pos (by omega), show n + 15 + 1 - 16 = n by omega, h]
  rfl

theorem decodeAC_run {t : Code} {r s v : Nat} {E : List Bool} (hr : r < 16) (hs : 1 ≤ s) (hs' : s ≤ 10)
    (hE : ∀ rest, symbol t (E ++ rest) = some (r * 16 + s, rest)) (hv : v < 2 ^ s) {f n : Nat} {rest rest' : List Bool} {l : List Int}
    (h : decodeAC t f n rest = some (l, rest')) :
    decodeAC t (f + 1) (n + r + 1) (E ++ (msb v s ++ rest)) = some (List.replicate r 0 ++ Jpg.extend v s :: l, rest') := by
  unfold decodeAC
  rw [hE]
  simp only [Option.bind_eq_bind, Option.bind_some]
  have e1 : (r * 16 + s) % 16 = s := by omega
  have e2 : (r * 16 + s) / 16 = r := by omega
  rw [if_neg (by omega), if_neg (by omega), e1, if_neg (by omega), e2, if_pos (by omega), receive_msb hv]
  simp only [Option.bind_some]
  rw [Nat.add_sub_cancel, h]
  rfl

/-- The position of the next coefficient that is not zero. -/
theorem jpgSkip_ok {c : List Int} (hlen : c.length = 64) {last : Nat} (hl : last < 64) (hne : c.getD last 0 ≠ 0) {i : Nat} (hi : i ≤ last) :
    ∃ j, jpgSkip (c.map some) last i = .ok j ∧ i ≤ j ∧ j ≤ last ∧ c.getD j 0 ≠ 0 ∧ ∀ k, i ≤ k → k < j → c.getD k 0 = 0 := by
  have hrd : ∀ k, k < 64 → rd (c.map some) k = .ok (c.getD k 0) := fun k hk => by
    unfold rd
    rw [List.getElem?_map, List.getElem?_eq_getElem (by omega), List.getD_eq_getElem?_getD, List.getElem?_eq_getElem (by omega)]
    rfl
  have := whileFuel_ok (σ := Nat) (fuel := 65) (s := i) (step := fun i => do
      let v ← rd (c.map some) i
      if v = 0 ∧ i ≤ last then pure (i + 1, false) else pure (i, true))
    (fun j => i ≤ j ∧ j ≤ last ∧ ∀ k, i ≤ k → k < j → c.getD k 0 = 0) (fun j => 64 - j)
    (fun j => i ≤ j ∧ j ≤ last ∧ c.getD j 0 ≠ 0 ∧ ∀ k, i ≤ k → k < j → c.getD k 0 = 0)
    ⟨le_rfl, hi, fun k h1 h2 => by omega⟩ (by omega) (by
      rintro j ⟨h1, h2, h3⟩
      rw [hrd j (by omega), ok_bind]
      by_cases hz : c.getD j 0 = 0
      · rw [if_pos ⟨hz, h2⟩]
        refine Ok.pure' ?_
        have : j ≠ last := by
          rintro rfl
          exact hne hz
        rw [if_neg (by simp)]
        refine ⟨⟨by omega, by omega, fun k k1 k2 => ?_⟩, by show 64 - (j + 1) < 64 - j; omega⟩
        rcases Nat.lt_or_ge k j with h | h
        · exact h3 k k1 h
        · rw [show k = j by omega]
          exact hz
      · rw [if_neg (fun h => hz h.1)]
        refine Ok.pure' ?_
        rw [if_pos rfl]
        exact ⟨h1, h2, hz, h3⟩)
  exact this

/-- The position of the last coefficient that is not zero. -/
theorem jpgLast_ok {c : List Int} (hlen : c.length = 64) :
    ∃ e, jpgLast (c.map some) = .ok e ∧ e < 64 ∧ (e ≠ 0 → c.getD e 0 ≠ 0) ∧ ∀ k, e < k → c.getD k 0 = 0 := by
  have hrd : ∀ k, k < 64 → rd (c.map some) k = .ok (c.getD k 0) := fun k hk => by
    unfold rd
    rw [List.getElem?_map, List.getElem?_eq_getElem (by omega), List.getD_eq_getElem?_getD, List.getElem?_eq_getElem (by omega)]
    rfl
  have := whileFuel_ok (σ := Nat) (fuel := 64) (s := 63) (step := fun e =>
      if 0 < e then do
        let v ← rd (c.map some) e
        if v = 0 then pure (e - 1, false) else pure (e, true)
      else pure (e, true))
    (fun e => e < 64 ∧ ∀ k, e < k → c.getD k 0 = 0) (fun e => e)
    (fun e => e < 64 ∧ (e ≠ 0 → c.getD e 0 ≠ 0) ∧ ∀ k, e < k → c.getD k 0 = 0)
    ⟨by norm_num, fun k hk => by rw [List.getD_eq_getElem?_getD, List.getElem?_eq_none (by omega)]; rfl⟩ (by norm_num) (by
      rintro e ⟨h1, h2⟩
      by_cases h0 : 0 < e
      · rw [if_pos h0, hrd e h1, ok_bind]
        by_cases hz : c.getD e 0 = 0
        · rw [if_pos hz]
          refine Ok.pure' ?_
          rw [if_neg (by simp)]
          refine ⟨⟨by show e - 1 < 64; omega, fun k hk => ?_⟩, by show e - 1 < e; omega⟩
          rcases Nat.lt_or_ge e k with h | h
          · exact h2 k h
          · have : e - 1 < k := hk
            rw [show k = e by omega]
            exact hz
        · rw [if_neg hz]
          refine Ok.pure' ?_
          rw [if_pos rfl]
          exact ⟨h1, fun _ => hz, h2⟩
      · rw [if_neg h0]
        refine Ok.pure' ?_
        rw [if_pos rfl]
        exact ⟨h1, fun h => absurd h (by omega), h2⟩)
  exact this

/-- `q` runs of 16 zeros. -/
theorem zrls_ok {ht : List (Nat × Nat)} {t : Code} (hc : Coded ht t 0xF0) {w : JpgW} {pre : List UInt8} {bits : List Bool}
    (h : Emitted w pre bits) {p : Nat × Nat} (hp : rdIn ht 0xF0 = .ok p) (q : Nat) :
    ∃ w' E, forN q w (fun _ w => stbiw_jpg_writeBits false p w) = .ok w' ∧ Emitted w' pre (bits ++ E) ∧
      ∀ f n rest rest' l, decodeAC t f n rest = some (l, rest') →
        decodeAC t (f + q) (n + 16 * q) (E ++ rest) = some (List.replicate (16 * q) 0 ++ l, rest') := by
  induction q with
  | zero => exact ⟨w, [], rfl, by rw [List.append_nil]; exact h, fun f n rest rest' l h => h⟩
  | succ q ih =>
    obtain ⟨w1, E1, h1, h2, h3⟩ := ih
    obtain ⟨p', w2, E2, h4, h5, h6, h7⟩ := write_coded' hc h2
    rw [hp] at h4
    cases h4
    refine ⟨w2, E1 ++ E2, by rw [forN_succ, h1, ok_bind, h5], by rw [← List.append_assoc]; exact h6, fun f n rest rest' l hd => ?_⟩
    have := h3 _ _ _ _ _ (decodeAC_zrl h7 hd)
    rw [List.append_assoc]
    rw [show f + (q + 1) = f + 1 + q by omega, show n + 16 * (q + 1) = n + 16 + 16 * q by omega, this, ← List.append_assoc,
      List.replicate_append_replicate,
      show 16 * q + 16 = 16 * (q + 1) by omega]

theorem drop_run {c : List Int} (hlen : c.length = 64) {i j : Nat} (hij : i ≤ j) (hj : j < 64) (hz : ∀ k, i ≤ k → k < j → c.getD k 0 = 0) :
    c.drop i = List.replicate (j - i) 0 ++ c.getD j 0 :: c.drop (j + 1) := by
  obtain ⟨d, rfl⟩ : ∃ d, j = i + d := ⟨j - i, by omega⟩
  rw [Nat.add_sub_cancel_left]
  induction d generalizing i with
  | zero =>
    rw [List.drop_eq_getElem_cons (by omega), List.getD_eq_getElem?_getD, Nat.add_zero, List.getElem?_eq_getElem (by omega)]
    rfl
  | succ d ih =>
    rw [List.drop_eq_getElem_cons (by omega)]
    have e : c[i]'(by omega) = 0 := by
      have := hz i le_rfl (by omega)
      rw [List.getD_eq_getElem?_getD, List.getElem?_eq_getElem (by omega)] at this
      exact this
    rw [e, ih (i := i + 1) (by omega) (by omega) (fun k h1 h2 => hz k (by omega) (by omega)), List.replicate_succ, List.cons_append]
    rw [show i + 1 + d = i + (d + 1) by omega]

/-- The coefficients from position `i` on are written; `tail` is what follows. -/
theorem jpgACs_ok {htdc htac : List (Nat × Nat)} {dc ac : Code} (ht : Tabs htdc htac dc ac) {c : List Int} (hlen : c.length = 64)
    (hc : ∀ k, 1 ≤ k → k < 64 → |c.getD k 0| < 1024) {last : Nat} (hl : last < 64) (hne : c.getD last 0 ≠ 0) {fuel i : Nat}
    (hi1 : 1 ≤ i) (hi : i ≤ last + 1) (hf : last + 1 - i < fuel) {w : JpgW} {pre : List UInt8} {bits : List Bool} (h : Emitted w pre bits) :
    ∃ w' E, whileFuel fuel (i, w) (jpgAC false (c.map some) last htac) = .ok (last + 1, w') ∧ Emitted w' pre (bits ++ E) ∧
      ∀ f rest rest', 64 - i ≤ f → (∀ f', 63 - last ≤ f' → decodeAC ac f' (63 - last) rest = some (c.drop (last + 1), rest')) →
        decodeAC ac f (64 - i) (E ++ rest) = some (c.drop i, rest') := by
  induction fuel generalizing i w bits with
  | zero => omega
  | succ n ih =>
    unfold whileFuel
    rcases Nat.lt_or_ge last i with hd | hle
    · have : i = last + 1 := by omega
      subst this
      have e : jpgAC false (c.map some) last htac (last + 1, w) = .ok ((last + 1, w), true) := by
        unfold jpgAC
        rw [if_neg (by simp)]
        rfl
      rw [e]
      refine ⟨w, [], rfl, by rw [List.append_nil]; exact h, fun f rest rest' h1 h2 => ?_⟩
      rw [show 64 - (last + 1) = 63 - last by omega]
      exact h2 f (by omega)
    · obtain ⟨j, s1, s2, s3, s4, s5⟩ := jpgSkip_ok hlen hl hne hle
      obtain ⟨v, m, c1, c2, c3, c4, c5⟩ := calcBits_ok s4 (b := 10) (by norm_num) (by norm_num; exact hc j (by omega) (by omega))
      obtain ⟨zv, zn, z1, z2, z3, z4⟩ := ht.zrl
      obtain ⟨w1, E1, f1, f2, f3⟩ := zrls_ok ht.zrl h z1 ((j - i) / 16)
      obtain ⟨p, w2, E2, g1, g2, g3, g4⟩ := write_coded' (ht.ac ((j - i) % 16) m (Nat.mod_lt _ (by norm_num)) c2 c3) f2
      obtain ⟨w3, g5, g6⟩ := writeBits_ok g3 c4 (by omega)
      have e : jpgAC false (c.map some) last htac (i, w) = .ok ((j + 1, w3), false) := by
        unfold jpgAC
        rw [if_pos hle]
        simp only
        rw [s1]
        simp only [ok_bind]
        rw [z1]
        simp only [ok_bind]
        rw [f1]
        simp only [ok_bind]
        have hrd : rd (c.map some) j = .ok (c.getD j 0) := by
          unfold rd
          rw [List.getElem?_map, List.getElem?_eq_getElem (by omega), List.getD_eq_getElem?_getD, List.getElem?_eq_getElem (by omega)]
          rfl
        rw [hrd]
        simp only [ok_bind]
        rw [c1]
        simp only [ok_bind]
        rw [g1]
        simp only [ok_bind]
        rw [g2]
        simp only [ok_bind]
        rw [g5]
        rfl
      rw [e]
      obtain ⟨w4, E4, i1, i2, i3⟩ := ih (i := j + 1) (by omega) (by omega) (by omega) g6
      refine ⟨w4, E1 ++ (E2 ++ (msb v m ++ E4)), i1, by rw [← List.append_assoc, ← List.append_assoc, ← List.append_assoc]; exact i2, ?_⟩
      intro f rest rest' h1 h2
      have hdm := Nat.div_add_mod (j - i) 16
      have hq : (j - i) / 16 + 1 ≤ f := by omega
      obtain ⟨f', rfl⟩ : ∃ f', f = f' + 1 + (j - i) / 16 := ⟨f - 1 - (j - i) / 16, by omega⟩
      have d1 := i3 f' rest rest' (by omega) h2
      have d2 := decodeAC_run (Nat.mod_lt _ (by norm_num)) c2 c3 g4 c4 d1
      have d3 := f3 _ _ _ _ _ d2
      rw [List.append_assoc, List.append_assoc, List.append_assoc]
      rw [show 64 - (j + 1) + (j - i) % 16 + 1 + 16 * ((j - i) / 16) = 64 - i by omega] at d3
      rw [d3, c5, ← List.append_assoc, List.replicate_append_replicate, hdm, ← drop_run hlen s2 (by omega) s5]

/-! ### A block -/

/-- `jpgBlock` writes a block so that the reader finds its coefficients. -/
theorem jpgBlock_ok {htdc htac : List (Nat × Nat)} {dc ac : Code} (ht : Tabs htdc htac dc ac) {c : List Int} (hlen : c.length = 64)
    {pred : Int} (hc0 : |c.getD 0 0 - pred| < 2048) (hc : ∀ k, 1 ≤ k → k < 64 → |c.getD k 0| < 1024) {w : JpgW} {pre : List UInt8}
    {bits : List Bool} (h : Emitted w pre bits) :
    ∃ w' E, jpgBlock false (c.map some) pred htdc htac w = .ok (c.getD 0 0, w') ∧ Emitted w' pre (bits ++ E) ∧
      ∀ rest, decodeBlock dc ac pred (E ++ rest) = some (c, rest) := by
  obtain ⟨ev, en, e1, e2, e3, e4⟩ := ht.eob
  obtain ⟨w1, E1, d1, d2, d3⟩ := jpgDC_ok ht hc0 h
  obtain ⟨last, l1, l2, l3, l4⟩ := jpgLast_ok hlen
  have hrd : rd (c.map some) 0 = .ok (c.getD 0 0) := by
    unfold rd
    rw [List.getElem?_map, List.getElem?_eq_getElem (by omega), List.getD_eq_getElem?_getD, List.getElem?_eq_getElem (by omega)]
    rfl
  have hcons : c = c.getD 0 0 :: c.drop 1 := by
    conv_lhs => rw [← List.drop_zero (l := c), drop_run hlen (le_refl 0) (by norm_num) (fun k _ h => absurd h (by omega))]
    rfl
  have hi : i32 (c.getD 0 0 - pred) = .ok (c.getD 0 0 - pred) := i32_ok (by
    have := abs_lt.1 hc0
    constructor <;> omega)
  have hdec : ∀ {E b : List Bool}, decodeAC ac 64 63 (E ++ b) = some (c.drop 1, b) → decodeBlock dc ac pred (E1 ++ (E ++ b)) = some (c, b) := by
    intro E b hE
    unfold decodeBlock
    rw [d3]
    simp only [Option.bind_eq_bind, Option.bind_some, hE]
    rw [show pred + (c.getD 0 0 - pred) = c.getD 0 0 by ring, ← hcons]
  have htail : ∀ k, last ≤ k → c.drop (k + 1) = List.replicate (63 - k) 0 := fun k hk => by
    apply List.ext_getElem
    · simp [hlen]
    · intro i h1 h2
      rw [List.getElem_drop, List.getElem_replicate]
      have := l4 (k + 1 + i) (by omega)
      rw [List.length_drop, hlen] at h1
      rw [List.getD_eq_getElem?_getD, List.getElem?_eq_getElem (by omega)] at this
      exact this
  unfold jpgBlock
  rw [e1]
  simp only [ok_bind]
  rw [hrd]
  simp only [ok_bind]
  rw [hi]
  simp only [ok_bind]
  rw [d1]
  simp only [ok_bind]
  rw [l1]
  simp only [ok_bind]
  by_cases h0 : last = 0
  · obtain ⟨w2, g1, g2⟩ := writeBits_ok d2 e2 e3
    refine ⟨w2, E1 ++ msb ev en, ?_, by rw [← List.append_assoc]; exact g2, fun rest => ?_⟩
    · rw [if_pos h0, g1]
      rfl
    · rw [List.append_assoc]
      apply hdec
      rw [decodeAC_eob e4 (by norm_num) (by norm_num), htail 0 (by omega)]
  · obtain ⟨w2, E2, g1, g2, g3⟩ := jpgACs_ok ht hlen hc l2 (l3 h0) (fuel := 64) (i := 1) le_rfl (by omega) (by omega) d2
    by_cases h63 : last = 63
    · refine ⟨w2, E1 ++ E2, ?_, by rw [← List.append_assoc]; exact g2, fun rest => ?_⟩
      · rw [if_neg h0, g1]
        simp only [ok_bind]
        rw [if_neg (by omega)]
        rfl
      · rw [List.append_assoc]
        apply hdec
        apply g3 64 _ _ (by norm_num)
        intro f' _
        rw [h63, List.drop_of_length_le (by omega), Nat.sub_self]
        unfold decodeAC
        cases f' <;> rfl
    · obtain ⟨w3, g4, g5⟩ := writeBits_ok g2 e2 e3
      refine ⟨w3, E1 ++ (E2 ++ msb ev en), ?_, by rw [← List.append_assoc, ← List.append_assoc]; exact g5, fun rest => ?_⟩
      · rw [if_neg h0, g1]
        simp only [ok_bind]
        rw [if_pos h63, g4]
        rfl
      · rw [List.append_assoc, List.append_assoc]
        have : decodeAC ac 64 (64 - 1) (E2 ++ (msb ev en ++ rest)) = some (c.drop 1, rest) := by
          apply g3 64 _ _ (by norm_num)
          intro f' hf'
          rw [decodeAC_eob e4 (by omega) (by omega), htail last le_rfl]
        have h5 := hdec (E := E2 ++ msb ev en) (b := rest) (by rw [List.append_assoc]; exact this)
        rw [List.append_assoc] at h5
        exact h5

end FlatCV
