/-
A stored block.
-/
import Verif.Lemmas.InflateBlock
import Verif.Lemmas.PngZlib

namespace FlatCV

open FlatCV.Model FlatCV.Png

/-- Byte `i` of the bits to come. -/
def byteAt (v i : Nat) : UInt8 := UInt8.ofNat (v / 2 ^ (8 * i))

def bytesAt (v k : Nat) : List UInt8 := (List.range k).map (byteAt v)

theorem bytesAt_length (v k : Nat) : (bytesAt v k).length = k := by rw [bytesAt, List.length_map, List.length_range]

theorem bytesAt_succ (v k : Nat) : bytesAt v (k + 1) = bytesAt v k ++ [byteAt v k] := by
  rw [bytesAt, List.range_succ, List.map_append]
  rfl

theorem byteAt_toNat (v i : Nat) : (byteAt v i).toNat = v / 2 ^ (8 * i) % 256 := by rw [byteAt, UInt8.toNat_ofNat']

theorem bytesAt_getD (v : Nat) {k i : Nat} (h : i < k) : (bytesAt v k).getD i 0 = byteAt v i := by
  rw [bytesAt, List.getD_eq_getElem?_getD, List.getElem?_map, List.getElem?_range h]
  rfl

theorem ofNat_eq_of_mod {a b : Nat} (h : a % 256 = b % 256) : UInt8.ofNat a = UInt8.ofNat b := by
  apply UInt8.toNat_inj.1
  rw [UInt8.toNat_ofNat', UInt8.toNat_ofNat']
  exact h

theorem align_ok {z : ZBuf} (hz : WF z) :
    Ok (alignBits z) (fun y => Adv (z.numBits % 8).toNat z y ∧ y.numBits % 8 = 0) := by
  have h0 := hz.nonneg
  rw [alignBits]
  by_cases hm : (z.numBits % 8).toNat ≠ 0
  · rw [if_pos hm, zreceive, if_neg (by omega)]
    simp only [pure_bind]
    have h1 := drop_adv hz (n := (z.numBits % 8).toNat) (by omega)
    refine Ok.pure' ⟨h1, ?_⟩
    have := h1.mod
    omega
  · rw [if_neg hm]
    refine Ok.pure' ⟨?_, by omega⟩
    rw [show (z.numBits % 8).toNat = 0 by omega]
    exact Adv.refl hz

theorem drainBits_ok {z : ZBuf} (hz : WF z) (h8 : z.numBits % 8 = 0) :
    Ok (drainBits z) (fun r => r.1 = outCells (bytesAt z.val r.2.1) 4 ∧ r.2.1 ≤ 4 ∧ Adv (8 * r.2.1) z r.2.2 ∧ r.2.2.numBits = 0) := by
  have hle := hz.le
  have hnn := hz.nonneg
  rw [drainBits]
  refine Ok.bind (whileFuel_ok (fun t => t.1 = outCells (bytesAt z.val t.2.1) 4 ∧ t.2.1 ≤ 4 ∧ Adv (8 * t.2.1) z t.2.2 ∧
      t.2.2.numBits = z.numBits - 8 * t.2.1) (fun t => t.2.2.numBits.toNat / 8) (fun r => r.1 = outCells (bytesAt z.val r.2.1) 4 ∧
      r.2.1 ≤ 4 ∧ Adv (8 * r.2.1) z r.2.2 ∧ r.2.2.numBits = 0) ⟨rfl, by simp, Adv.refl hz, by simp⟩ (by simp only; omega) ?_) ?_
  · rintro ⟨h, k, y⟩ ⟨h1, h2, h3, h4⟩
    simp only at h1 h2 h3 h4 ⊢
    have hy := h3.wf.nonneg
    by_cases hp : 0 < y.numBits
    · rw [if_pos hp, h1]
      have hw := outCells_wr (l := bytesAt z.val k) (cap := 4) (by rw [bytesAt_length]; omega) (byteAt z.val k)
      rw [bytesAt_length] at hw
      have hb : UInt8.ofNat (y.code &&& 255) = byteAt z.val k := by
        rw [show (255 : Nat) = 2 ^ 8 - 1 from rfl, Nat.and_two_pow_sub_one_eq_mod, code_mod (n := 8) (by omega), byteAt, h3.val]
        refine ofNat_eq_of_mod ?_
        rw [show (2 : Nat) ^ 8 = 256 from rfl, Nat.mod_mod]
      rw [hb, hw, ok_bind]
      refine Ok.pure' ?_
      rw [if_neg (by simp)]
      have hd := drop_adv h3.wf (n := 8) (by omega)
      refine ⟨⟨by rw [bytesAt_succ], by simp only; omega, ?_, ?_⟩, ?_⟩
      · exact h3.trans hd
      · simp only [ZBuf.drop]; push_cast; omega
      · simp only [ZBuf.drop]; omega
    · rw [if_neg hp]
      refine Ok.pure' ?_
      rw [if_pos rfl]
      exact ⟨h1, h2, h3, by simp only; omega⟩
  · rintro ⟨h, k, y⟩ hr
    exact Ok.pure' hr

/-- A whole byte while there are no bits in the buffer. -/
theorem zget8_adv {z : ZBuf} (hz : WF z) (h0 : z.numBits = 0) :
    Ok (zget8 z) (fun r => r.1 = UInt8.ofNat z.val ∧ Adv 8 z r.2 ∧ r.2.numBits = 0) := by
  have hc : z.code = 0 := by
    have := hz.code
    rw [h0] at this
    simpa using this
  have hv : z.val = num (bitsOf (z.zin.drop z.pos)) := by
    rw [ZBuf.val, hc, h0]
    simp
  by_cases hp : z.pos < z.zin.length
  · rw [zget8_ok hp]
    have hd : z.zin.drop z.pos = z.zin[z.pos] :: z.zin.drop (z.pos + 1) := List.drop_eq_getElem_cons hp
    rw [hd, num_bytes] at hv
    have hlt := z.zin[z.pos].toNat_lt
    refine Ok.pure' ⟨?_, ⟨⟨?_, ?_, ?_, ?_⟩, ⟨rfl, rfl, rfl, rfl, rfl⟩, ?_, ?_, ?_⟩, h0⟩
    · rw [hv]
      apply UInt8.toNat_inj.1
      rw [UInt8.toNat_ofNat']
      simp only [Nat.add_mul_mod_self_right]
      omega
    · simp only; omega
    · simp only; omega
    · simp only; omega
    · simp only [hc]; positivity
    · rw [ZBuf.val]
      simp only [hc, h0]
      rw [hv]
      simp only [Int.toNat_zero, pow_zero, Nat.mul_one, Nat.zero_add]
      rw [show (2 : Nat) ^ 8 = 256 from rfl]
      omega
    · simp only; omega
    · intro _
      simp only [ZBuf.left]
      refine ⟨?_, trivial⟩
      omega
  · rw [zget8_eof (by omega)]
    rw [List.drop_eq_nil_of_le (by omega)] at hv
    have hv0 : z.val = 0 := hv
    refine Ok.pure' ⟨?_, ⟨hz, Same.refl z, ?_, ?_, ?_⟩, h0⟩
    · rw [hv0]; rfl
    · rw [hv0, Nat.zero_div]
    · simp only; omega
    · intro h
      exfalso
      rw [ZBuf.left, h0] at h
      have := hz.pos
      omega

/-- The four bytes of the header. -/
theorem fillHeader_ok {z y : ZBuf} {k : Nat} (hk : k ≤ 4) (hy : Adv (8 * k) z y) (h0 : y.numBits = 0) :
    Ok (forFrom k 4 (outCells (bytesAt z.val k) 4, y) fun i t => do
      let (b, z) ← zget8 t.2
      let h ← wr t.1 i b
      pure (h, z)) (fun r => r.1 = outCells (bytesAt z.val 4) 4 ∧ Adv 32 z r.2 ∧ r.2.numBits = 0) := by
  rw [forFrom]
  refine (forN_ok (fun i (r : Cells UInt8 × ZBuf) => r.1 = outCells (bytesAt z.val (k + i)) 4 ∧ Adv (8 * (k + i)) z r.2 ∧ r.2.numBits = 0)
    ⟨rfl, hy, h0⟩ ?_).mono ?_
  · rintro i hi ⟨c, x⟩ ⟨h1, h2, h3⟩
    simp only at h1 h2 h3 ⊢
    refine Ok.bind (zget8_adv h2.wf h3) ?_
    rintro ⟨b, x'⟩ ⟨h4, h5, h6⟩
    simp only at h4 h5 h6 ⊢
    have hw := outCells_wr (l := bytesAt z.val (k + i)) (cap := 4) (by rw [bytesAt_length]; omega) (byteAt z.val (k + i))
    rw [bytesAt_length] at hw
    rw [h4, h2.val, h1]
    rw [byteAt] at hw
    rw [hw, ok_bind]
    refine Ok.pure' ⟨?_, ?_, h6⟩
    · rw [← Nat.add_assoc, bytesAt_succ, byteAt]
    · have := h2.trans h5
      rwa [show 8 * (k + i) + 8 = 8 * (k + (i + 1)) by omega] at this
  · rintro ⟨c, x⟩ ⟨h1, h2, h3⟩
    rw [show k + (4 - k) = 4 by omega] at h1 h2
    exact ⟨h1, h2, h3⟩

theorem xor_ffff {n : Nat} (h : n < 65536) : n ^^^ 0xffff = 65535 - n := by
  have : n ^^^ (2 ^ 16 - 1) = 2 ^ 16 - 1 - n := by
    apply Nat.eq_of_testBit_eq
    intro i
    rw [Nat.testBit_xor, Nat.testBit_two_pow_sub_one, show 2 ^ 16 - 1 - n = 2 ^ 16 - (n + 1) by omega,
      Nat.testBit_two_pow_sub_succ (by omega)]
    by_cases hi : i < 16
    · simp [hi]
    · have h2 : n.testBit i = false := Nat.testBit_lt_two_pow (lt_of_lt_of_le h (Nat.pow_le_pow_right (n := 2) (by norm_num) (by omega : 16 ≤ i)))
      simp [hi, h2]
  exact this

theorem takeBytes_length : ∀ (n : Nat) {bs : List Bool} {p : List UInt8 × List Bool}, takeBytes n bs = some p →
    p.1.length = n ∧ p.2.length + 8 * n = bs.length
  | 0, bs, p, h => by
    rw [takeBytes] at h
    cases h
    exact ⟨rfl, rfl⟩
  | n + 1, bs, p, h => by
    rw [takeBytes] at h
    cases h1 : takeNum 8 bs with
    | none => rw [h1] at h; cases h
    | some q =>
      rw [h1] at h
      obtain ⟨v, bs'⟩ := q
      obtain ⟨h2, _, h3⟩ := takeNum_some h1
      simp only at h
      cases h4 : takeBytes n bs' with
      | none => rw [h4] at h; cases h
      | some q =>
        rw [h4] at h
        obtain ⟨l, bs''⟩ := q
        cases h
        obtain ⟨h5, h6⟩ := takeBytes_length n h4
        simp only at h5 h6 ⊢
        rw [h3, List.length_drop] at h6
        rw [List.length_cons]
        omega

/-- Bytes of a list of bits with the same value as the input. -/
theorem takeBytes_input {bs : List Bool} {l : List UInt8} {n : Nat} (hn : n ≤ l.length) (hv : num bs = num (bitsOf l)) (hb : 8 * n ≤ bs.length) :
    takeBytes n bs = some (l.take n, bs.drop (8 * n)) := by
  have h1 : bs.take (8 * n) = bitsOf (l.take n) := by
    have h2 : (bitsOf l).take (8 * n) = bitsOf (l.take n) := by
      conv_lhs => rw [← List.take_append_drop n l, bitsOf_append]
      refine List.take_left' ?_
      rw [bitsOf_length, List.length_take, Nat.min_eq_left hn]
    rw [take_eq_low bs hb, hv, ← take_eq_low (bitsOf l) (by rw [bitsOf_length]; omega), h2]
  have h3 := takeBytes_bitsOf (l.take n) (bs.drop (8 * n))
  rwa [List.length_take, Nat.min_eq_left hn, ← h1, List.take_append_drop] at h3

/-- The specification of a stored block. -/
theorem inflateStored_eq {bs : List Bool} {m : Nat} (hm : bs.length % 8 = m) (hl : m + 32 ≤ bs.length) (out : List UInt8) :
    inflateStored bs out = if num bs / 2 ^ m % 65536 + num bs / 2 ^ (m + 16) % 65536 = 65535 then
      (takeBytes (num bs / 2 ^ m % 65536) (bs.drop (m + 32))).map fun p => (p.2, out ++ p.1) else none := by
  rw [inflateStored, hm, takeNum_eq (by rw [List.length_drop]; omega)]
  simp only
  rw [takeNum_eq (by rw [List.length_drop, List.length_drop]; omega)]
  simp only
  rw [List.drop_drop, List.drop_drop, num_drop, num_drop, show (2 : Nat) ^ 16 = 65536 from rfl, show m + 16 + 16 = m + 32 by omega]
  cases takeBytes (num bs / 2 ^ m % 65536) (bs.drop (m + 32)) with
  | none => rfl
  | some p => rfl

theorem inflateStored_needs {bs : List Bool} {m : Nat} (hm : bs.length % 8 = m) {out : List UInt8} {p : List Bool × List UInt8}
    (h : inflateStored bs out = some p) : m + 32 ≤ bs.length := by
  rw [inflateStored] at h
  cases h1 : takeNum 16 (bs.drop (bs.length % 8)) with
  | none => rw [h1] at h; cases h
  | some q =>
    rw [h1] at h
    obtain ⟨v, bs'⟩ := q
    obtain ⟨h2, _, h3⟩ := takeNum_some h1
    simp only at h
    cases h4 : takeNum 16 bs' with
    | none => rw [h4] at h; cases h
    | some q =>
      obtain ⟨h5, _, _⟩ := takeNum_some h4
      rw [h3, List.length_drop] at h5
      rw [List.length_drop] at h2 h5
      omega

theorem two_bytes (w : Nat) : w / 256 % 256 * 256 + w % 256 = w % 65536 := by omega

theorem stored_ok {z : ZBuf} {l : List UInt8} (hz : WF z) (ho : OutIs z l) :
    Ok (parse_uncompressed_block z) (OutPost (fun bs => inflateStored bs l) z) := by
  rw [parse_uncompressed_block]
  refine Ok.bind (align_ok hz) ?_
  rintro z1 ⟨h1, h18⟩
  refine Ok.bind (drainBits_ok h1.wf h18) ?_
  rintro ⟨header, k, z2⟩ ⟨h2, hk, h3, h20⟩
  simp only at h2 hk h3 h20 ⊢
  rw [if_neg (by omega), h2]
  refine Ok.bind (fillHeader_ok hk h3 h20) ?_
  rintro ⟨header', z3⟩ ⟨h4, h5, h30⟩
  simp only at h4 h5 h30 ⊢
  subst h4
  have hrd : ∀ i, i < 4 → rd (outCells (bytesAt z1.val 4) 4) i = .ok (byteAt z1.val i) := fun i hi => by
    rw [outCells_rd (by rw [bytesAt_length]; exact hi), bytesAt_getD _ hi]
  rw [hrd 0 (by norm_num), ok_bind, hrd 1 (by norm_num), ok_bind, hrd 2 (by norm_num), ok_bind, hrd 3 (by norm_num), ok_bind]
  obtain ⟨m, hm⟩ : ∃ m : Nat, m = (z.numBits % 8).toNat := ⟨_, rfl⟩
  rw [← hm] at h1
  have hnn := hz.nonneg
  have hm8 : (m : Int) = z.numBits % 8 := by omega
  have hv1 := h1.val
  have hadv := h1.trans h5
  obtain ⟨v, hv⟩ : ∃ v, v = z1.val := ⟨_, rfl⟩
  rw [← hv] at hv1 ⊢
  obtain ⟨len, hlen⟩ : ∃ len, len = v % 65536 := ⟨_, rfl⟩
  obtain ⟨nlen, hnlen⟩ : ∃ nlen, nlen = v / 65536 % 65536 := ⟨_, rfl⟩
  have e1 : (byteAt v 1).toNat * 256 + (byteAt v 0).toNat = len := by
    rw [byteAt_toNat, byteAt_toNat, hlen, show (2 : Nat) ^ (8 * 1) = 256 from rfl, show (2 : Nat) ^ (8 * 0) = 1 from rfl]
    omega
  have e2 : (byteAt v 3).toNat * 256 + (byteAt v 2).toNat = nlen := by
    rw [byteAt_toNat, byteAt_toNat, hnlen, show 8 * 3 = 8 * 2 + 8 by rfl, pow_add, ← Nat.div_div_eq_div_mul, show (2 : Nat) ^ (8 * 2) = 65536 from rfl,
      show (2 : Nat) ^ 8 = 256 from rfl]
    exact two_bytes _
  rw [e1, e2, xor_ffff (by omega)]
  -- the specification
  have hspec : ∀ bs : List Bool, num bs = z.val → (bs.length : Int) % 8 = z.numBits % 8 → m + 32 ≤ bs.length →
      inflateStored bs l = if len + nlen = 65535 then (takeBytes len (bs.drop (m + 32))).map fun p => (p.2, l ++ p.1) else none := by
    intro bs hb hb8 hbl
    rw [inflateStored_eq (m := m) (by omega) hbl, hb, pow_add, ← Nat.div_div_eq_div_mul, ← hv1, ← hlen, show (2 : Nat) ^ 16 = 65536 from rfl, ← hnlen]
  have hneeds : ∀ (bs : List Bool) p, (bs.length : Int) % 8 = z.numBits % 8 → inflateStored bs l = some p → m + 32 ≤ bs.length :=
    fun bs p hb8 h => inflateStored_needs (by omega) h
  have hleft8 : (z.left : Int) % 8 = z.numBits % 8 := by
    rw [ZBuf.left]
    push_cast
    omega
  by_cases hc : nlen ≠ 65535 - len
  · rw [if_pos hc]
    refine Ok.pure' ?_
    rw [OutPost, if_neg (by simp)]
    intro bs cap hb hbl _ _ rest o hsp _ _
    have hb8 : (bs.length : Int) % 8 = z.numBits % 8 := by rw [hbl]; exact hleft8
    rw [hspec bs hb hb8 (hneeds bs _ hb8 hsp), if_neg (by omega)] at hsp
    cases hsp
  · rw [if_neg hc]
    have hsum : len + nlen = 65535 := by omega
    have hz3pos := hadv.wf.pos
    by_cases hfit : z3.zin.length < z3.pos + len
    · rw [if_pos hfit]
      refine Ok.pure' ?_
      rw [OutPost, if_neg (by simp)]
      intro bs cap hb hbl _ _ rest o hsp h32 _
      have hb8 : (bs.length : Int) % 8 = z.numBits % 8 := by rw [hbl]; exact hleft8
      rw [hspec bs hb hb8 (hneeds bs _ hb8 hsp), if_pos hsum, Option.map_eq_some_iff] at hsp
      obtain ⟨p, hp, hpe⟩ := hsp
      obtain ⟨_, h7⟩ := takeBytes_length _ hp
      rw [List.length_drop] at h7
      have h8 : p.2 = rest := (Prod.mk.inj hpe).1
      rw [h8] at h7
      obtain ⟨h9, _⟩ := hadv.left (by omega)
      rw [ZBuf.left, h30] at h9
      simp only [Int.toNat_zero] at h9
      omega
    · rw [if_neg hfit]
      have ho3 : OutIs z3 l := by
        have hs := hadv.same
        exact ⟨by rw [hs.out]; exact ho.out, by rw [hs.zout]; exact ho.zout, by rw [hs.out]; exact ho.le, by rw [hs.out]; exact ho.pos,
          by rw [hs.out]; exact ho.lt⟩
      refine Ok.bind (room_ok ho3 len) ?_
      rintro ⟨ok, z4⟩ ⟨ho4, hs4, hcap4, hroom, hcan⟩
      simp only at ho4 hs4 hcap4 hroom hcan ⊢
      have hc3 : z3.code = 0 := by
        have := hadv.wf.code
        rw [h30] at this
        simpa using this
      have hval3 : z3.val = num (bitsOf (z3.zin.drop z3.pos)) := by
        rw [ZBuf.val, hc3, h30]
        simp
      have htake : ∀ bs : List Bool, num bs = z.val → m + 32 + 8 * len ≤ bs.length →
          takeBytes len (bs.drop (m + 32)) = some ((z3.zin.drop z3.pos).take len, bs.drop (m + 32 + 8 * len)) := by
        intro bs hb hbl
        rw [takeBytes_input (l := z3.zin.drop z3.pos) (by rw [List.length_drop]; omega) (by rw [num_drop, hb, ← hval3, hadv.val])
          (by rw [List.length_drop]; omega), List.drop_drop]
      cases ok with
      | false =>
        rw [if_neg (by simp)]
        refine Ok.pure' ?_
        rw [OutPost, if_neg (by simp)]
        intro bs cap hb hbl _ hcap rest o hsp h32 hocap
        have hb8 : (bs.length : Int) % 8 = z.numBits % 8 := by rw [hbl]; exact hleft8
        rw [hspec bs hb hb8 (hneeds bs _ hb8 hsp), if_pos hsum, Option.map_eq_some_iff] at hsp
        obtain ⟨p, hp, hpe⟩ := hsp
        obtain ⟨h6, _⟩ := takeBytes_length _ hp
        have h8 : l ++ p.1 = o := (Prod.mk.inj hpe).2
        have h9 := congrArg List.length h8
        rw [List.length_append, h6] at h9
        have hcap3 : CanHold z3 cap := by
          rw [CanHold, hadv.same.out, hadv.same.grows]
          exact hcap
        have := hcan cap hcap3 (by omega)
        cases this
      | true =>
        rw [if_pos rfl]
        have hroom' := hroom rfl
        have hmem := outCells_memcpy (l := l) (cap := z4.out.length) (p := z4.pos) (n := len) (src := z4.zin)
          (by rw [hs4.zin, hs4.pos]; omega) hroom'
        have hout4 := ho4.out
        have hz4 := ho4.zout
        rw [hz4]
        rw [← hout4] at hmem
        rw [hmem, ok_bind]
        refine Ok.pure' ?_
        rw [OutPost, if_pos rfl, hs4.zin, hs4.pos]
        have hlen4 : (l ++ (z3.zin.drop z3.pos).take len).length = l.length + len := by
          rw [List.length_append, List.length_take, List.length_drop]
          omega
        have hv5 : num (bitsOf (z3.zin.drop (z3.pos + len))) = z3.val / 2 ^ (8 * len) := by
          rw [hval3, ← num_drop]
          congr 1
          conv_rhs => rw [← List.take_append_drop len (z3.zin.drop z3.pos), bitsOf_append]
          rw [List.drop_left' (by rw [bitsOf_length, List.length_take, List.length_drop]; omega), List.drop_drop]
        refine ⟨m + 32 + 8 * len, l ++ (z3.zin.drop z3.pos).take len, ⟨⟨?_, ?_, ?_, ?_⟩, ?_, ?_, ?_, ?_, ?_, ?_⟩, ⟨?_, ?_, ?_, ?_, ?_⟩, ?_, ?_⟩
        · simp only [hs4.zin]; omega
        · simp only [hs4.numBits, h30]; exact le_rfl
        · simp only [hs4.numBits, h30]; norm_num
        · simp only [hs4.numBits, h30, hs4.code, hc3]; norm_num
        · simp only [hs4.zin]; exact hadv.same.zin
        · simp only [hs4.grows]; exact hadv.same.grows
        · simp only
          rw [outCells_length (by omega), ← hadv.same.out]
          exact hcap4
        · simp only [ZBuf.val, hs4.zin, hs4.numBits, h30, hs4.code, hc3, Int.toNat_zero, pow_zero, Nat.mul_one, Nat.zero_add]
          rw [hv5, hadv.val, Nat.div_div_eq_div_mul, ← pow_add]
          rfl
        · simp only [hs4.numBits, h30]
          push_cast
          omega
        · intro h
          obtain ⟨h6, h7⟩ := hadv.left (by omega)
          refine ⟨?_, ?_⟩
          · rw [← h6]
            simp only [ZBuf.left, hs4.zin, hs4.numBits, h30, Int.toNat_zero]
            omega
          · simp only [hs4.hit]
            exact h7
        · simp only
          rw [outCells_length (by omega)]
        · simp only
          omega
        · simp only
          rw [outCells_length (by omega)]
          omega
        · simp only
          rw [outCells_length (by omega)]
          exact ho4.pos
        · simp only
          rw [outCells_length (by omega)]
          exact ho4.lt
        · intro bs hb hb8 hbl
          rw [hspec bs hb hb8 (by omega), if_pos hsum, htake bs hb hbl]
          rfl
        · intro bs p hb hb8 hsp
          have h32 := hneeds bs _ hb8 hsp
          rw [hspec bs hb hb8 h32, if_pos hsum, Option.map_eq_some_iff] at hsp
          obtain ⟨q, hq, _⟩ := hsp
          obtain ⟨_, h7⟩ := takeBytes_length _ hq
          rw [List.length_drop] at h7
          omega

end FlatCV
