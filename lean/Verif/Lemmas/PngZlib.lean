/-
The zlib stream: stored blocks, the checksum, and that RFC 1950's reader gives back the data.
-/
import Verif.Lemmas.PngDeflate

namespace FlatCV
open Model Png

/-! ### Stored blocks -/

theorem takeBytes_bitsOf (l : List UInt8) (R : List Bool) : takeBytes l.length (bitsOf l ++ R) = some (l, R) := by
  induction l with
  | nil => rfl
  | cons v l ih =>
    rw [List.length_cons, takeBytes, bitsOf_cons, List.append_assoc, takeNum_low v.toNat_lt]
    simp only
    rw [ih]
    simp

/-- The bytes of a stored block. -/
def storedBlock (final : Bool) (l : List UInt8) : List UInt8 :=
  [if final then 1 else 0, u8 l.length, u8 (l.length / 256), u8 (65535 - l.length), u8 ((65535 - l.length) / 256)] ++ l

theorem inflateStored_ok {l : List UInt8} (hl : l.length < 65536) {R : List Bool} (hR : R.length % 8 = 0) (out : List UInt8) :
    inflateStored ([false, false, false, false, false] ++ (bitsOf ([u8 l.length, u8 (l.length / 256), u8 (65535 - l.length),
      u8 ((65535 - l.length) / 256)] ++ l) ++ R)) out = some (R, out ++ l) := by
  have e : bitsOf ([u8 l.length, u8 (l.length / 256), u8 (65535 - l.length), u8 ((65535 - l.length) / 256)] ++ l) =
      low l.length 16 ++ (low (65535 - l.length) 16 ++ bitsOf l) := by
    rw [show 16 = 8 + 8 from rfl, low_append, low_append, bitsOf_append]
    simp [bitsOf, bitsOfByte_u8]
  rw [e]
  rw [inflateStored]
  have hdrop : ([false, false, false, false, false] ++ (low l.length 16 ++ (low (65535 - l.length) 16 ++ bitsOf l) ++ R)).drop
      (([false, false, false, false, false] ++ (low l.length 16 ++ (low (65535 - l.length) 16 ++ bitsOf l) ++ R)).length % 8) =
      low l.length 16 ++ (low (65535 - l.length) 16 ++ (bitsOf l ++ R)) := by
    have : ([false, false, false, false, false] ++ (low l.length 16 ++ (low (65535 - l.length) 16 ++ bitsOf l) ++ R)).length % 8 = 5 := by
      simp
      omega
    rw [this, List.drop_left' (by simp)]
    simp only [List.append_assoc]
  rw [hdrop, takeNum_low (by omega)]
  simp only
  rw [takeNum_low (by omega)]
  simp only
  rw [if_pos (by omega), takeBytes_bitsOf]

theorem inflateBlocks_stored {l : List UInt8} (hl : l.length < 65536) {R : List Bool} (hR : R.length % 8 = 0) (final : Bool)
    (out : List UInt8) (f : Nat) : inflateBlocks (f + 1) (bitsOf (storedBlock final l) ++ R) out =
      if final then some (R, out ++ l) else inflateBlocks f R (out ++ l) := by
  have h0 := inflateStored_ok hl hR out
  have e : bitsOf (storedBlock final l) ++ R = [final, false, false] ++ ([false, false, false, false, false] ++
      (bitsOf ([u8 l.length, u8 (l.length / 256), u8 (65535 - l.length), u8 ((65535 - l.length) / 256)] ++ l) ++ R)) := by
    rw [storedBlock, List.cons_append, bitsOf_cons]
    cases final <;> simp [low]
  rw [e, inflateBlocks]
  generalize [false, false, false, false, false] ++
      (bitsOf ([u8 l.length, u8 (l.length / 256), u8 (65535 - l.length), u8 ((65535 - l.length) / 256)] ++ l) ++ R) = T at h0
  have t1 : takeNum 1 ([final, false, false] ++ T) = some (final.toNat, [false, false] ++ T) := by
    simp [takeNum, num]
  have t2 : takeNum 2 ([false, false] ++ T) = some (0, T) := by
    simp [takeNum, num]
  rw [t1]
  simp only
  rw [t2]
  simp only
  simp only [if_true, h0]
  cases final <;> simp

/-- The state of the loop that stores the data: `nb` blocks have been written. -/
structure StoreInv (data : List UInt8) (cap0 : Nat) (j : Nat) (out : Sb) (nb : Nat) : Prop where
  j_le : j ≤ data.length
  j_eq : (j = 32767 * nb ∧ j < data.length) ∨ (j = data.length ∧ data.length ≤ 32767 * nb ∧ 32767 * nb < data.length + 32767)
  cap : cap0 ≤ out.cap
  bytes : ∃ S, out.cells = [0x78, 0x5e] ++ S ∧ S.length = j + 5 * nb ∧ ∀ R f, R.length % 8 = 0 →
    inflateBlocks (f + nb) (bitsOf S ++ R) [] = if j = data.length then some (R, data) else inflateBlocks f R (data.take j)

theorem storeBlock_ok {data : List UInt8} {cap0 j nb : Nat} {out : Sb} (hd : data.length ≤ 600000000)
    (hcap : 2 + data.length + 5 * ((data.length + 32766) / 32767) < cap0) (h : StoreInv data cap0 j out nb) (hj : j < data.length) :
    Ok (storeBlock data j out) fun r => StoreInv data cap0 r.1 r.2 (nb + 1) ∧ j < r.1 := by
  obtain ⟨S, hS, hlen, hread⟩ := h.bytes
  have hje : j = 32767 * nb := by
    rcases h.j_eq with h | h <;> omega
  have hcap' := h.cap
  have hl0 : out.cells.length = 2 + j + 5 * nb := by rw [hS]; simp; omega
  rw [storeBlock]
  generalize hblk : (if data.length - j > 32767 then 32767 else data.length - j) = len
  have hlen1 : len ≤ 32767 ∧ len ≤ data.length - j ∧ (len = 32767 ∨ len = data.length - j) ∧ 0 < len := by
    split_ifs at hblk <;> omega
  have hinv : out.Inv := by show out.cells.length < out.cap; omega
  refine Ok.bind (sb_push hinv (by omega) _) ?_
  rintro o1 ⟨h1, i1, c1⟩
  refine Ok.bind (sb_push i1 (by rw [h1]; simp; omega) _) ?_
  rintro o2 ⟨h2, i2, c2⟩
  refine Ok.bind (sb_push i2 (by rw [h2, h1]; simp; omega) _) ?_
  rintro o3 ⟨h3, i3, c3⟩
  refine Ok.bind (sb_push i3 (by rw [h3, h2, h1]; simp; omega) _) ?_
  rintro o4 ⟨h4, i4, c4⟩
  refine Ok.bind (sb_push i4 (by rw [h4, h3, h2, h1]; simp; omega) _) ?_
  rintro o5 ⟨h5, i5, c5⟩
  have hl5 : o5.cells.length = 2 + j + 5 * nb + 5 := by rw [h5, h4, h3, h2, h1]; simp; omega
  have hB : ((data.drop j).take len).length = len := by simp; omega
  rw [if_pos (by omega)]
  have e1 : u8OfInt (-1 - (len : Int)) = u8 (65535 - len) := by
    rw [u8OfInt, u8, ← UInt8.toNat_inj, UInt8.toNat_ofNat', UInt8.toNat_ofNat']
    omega
  have e2 : u8OfInt ((-1 - (len : Int)) / 256) = u8 ((65535 - len) / 256) := by
    rw [u8OfInt, u8, ← UInt8.toNat_inj, UInt8.toNat_ofNat', UInt8.toNat_ofNat']
    omega
  have hcells : o5.cells ++ (data.drop j).take len = [0x78, 0x5e] ++ (S ++ storedBlock (decide (j + len = data.length)) ((data.drop j).take len)) := by
    rw [h5, h4, h3, h2, h1, hS, storedBlock, hB, e1, e2]
    simp only [List.append_assoc, List.cons_append, List.nil_append, decide_eq_true_eq]
    by_cases hf : data.length - j = len
    · rw [if_pos hf, if_pos (by omega)]
    · rw [if_neg hf, if_neg (by omega)]
  refine Ok.pure' ⟨⟨?_, ?_, ?_, S ++ storedBlock (decide (j + len = data.length)) ((data.drop j).take len), hcells, ?_, ?_⟩, ?_⟩
  · show j + len ≤ _
    omega
  · show (j + len = _ ∧ j + len < _) ∨ (j + len = _ ∧ _)
    omega
  · show cap0 ≤ o5.cap
    omega
  · show _ = j + len + 5 * (nb + 1)
    simp [storedBlock]
    omega
  · intro R f hR
    show _ = if j + len = data.length then _ else _
    have hT : (bitsOf (storedBlock (decide (j + len = data.length)) ((data.drop j).take len)) ++ R).length % 8 = 0 := by
      rw [List.length_append, bitsOf_length]
      omega
    have := hread (bitsOf (storedBlock (decide (j + len = data.length)) ((data.drop j).take len)) ++ R) (f + 1) hT
    rw [if_neg (by omega)] at this
    rw [show f + (nb + 1) = f + 1 + nb by omega, bitsOf_append, List.append_assoc, this,
      inflateBlocks_stored (by omega) hR]
    have htake : data.take j ++ (data.drop j).take len = data.take (j + len) := by rw [List.take_add]
    rw [htake]
    by_cases hf : j + len = data.length
    · simp [hf]
    · simp [hf]
  · show j < j + len
    omega

theorem storeIfShorter_ok {data : List UInt8} {out : Sb} (hd : data.length ≤ 600000000) (h0 : 0 < data.length) (hi : out.Inv)
    (hc : out.cells.take 2 = [0x78, 0x5e]) :
    Ok (storeIfShorter data out) fun r => r = out ∨ (r.Inv ∧ r.cells.length ≤ data.length + data.length / 8 + 10 ∧ ∃ S, r.cells = [0x78, 0x5e] ++ S ∧ ∃ nb, nb ≤ S.length ∧
      ∀ R f, R.length % 8 = 0 → inflateBlocks (f + nb) (bitsOf S ++ R) [] = some (R, data)) := by
  rw [storeIfShorter]
  have e : (((data.length : Int) + 32766) / 32767) = (((data.length + 32766) / 32767 : Nat) : Int) := by push_cast; rfl
  rw [i32_ok (by constructor <;> omega), ok_bind, e]
  have hN : (data.length + 32766) / 32767 ≤ 600000000 := by omega
  generalize hNg : (data.length + 32766) / 32767 = N at *
  rw [i32_ok (by constructor <;> omega), ok_bind, i32_ok (by constructor <;> omega), ok_bind,
    i32_ok (by constructor <;> omega), ok_bind]
  split_ifs with hlt
  swap
  · exact Ok.pure' (Or.inl rfl)
  have hinv : out.cells.length < out.cap := hi
  have hcap : 2 + data.length + 5 * ((data.length + 32766) / 32767) < out.cap := by omega
  have loop : ∀ fuel (s : Nat × Sb) nb, data.length + 1 ≤ fuel + s.1 → StoreInv data out.cap s.1 s.2 nb →
      Ok (whileFuel fuel s fun s => do
        if s.1 < data.length then do
          let s ← storeBlock data s.1 s.2
          pure (s, false)
        else pure (s, true)) fun r => ∃ nb, StoreInv data out.cap r.1 r.2 nb ∧ r.1 = data.length := by
    intro fuel
    induction fuel with
    | zero =>
      intro s nb hf hs
      have := hs.j_le
      omega
    | succ fuel ih =>
      intro s nb hf hs
      rw [whileFuel]
      by_cases h : s.1 < data.length
      · simp only [h, if_true]
        obtain ⟨r, e, hr, hlt⟩ := storeBlock_ok hd hcap hs h
        rw [e]
        simp only [ok_bind, pure_bind', Bool.false_eq_true, if_false]
        exact ih r (nb + 1) (by omega) hr
      · simp only [h, if_false, pure_bind', if_true]
        have := hs.j_le
        exact Ok.pure ⟨nb, hs, by omega⟩
  refine Ok.bind (loop (data.length + 1) (0, ⟨out.cells.take 2, out.cap⟩) 0 (by show _ ≤ _ + 0; omega)
    ⟨by simp, Or.inl ⟨rfl, h0⟩, le_rfl, [], by rw [hc]; rfl, rfl, ?_⟩) ?_
  · intro R f hR
    simp
    intro h
    omega
  · rintro ⟨j, r⟩ ⟨nb, hr, hj⟩
    simp only at hr hj
    subst hj
    obtain ⟨S, h1, h2, h3⟩ := hr.bytes
    have hcap2 := hr.cap
    have hj := hr.j_eq
    refine Ok.pure' (Or.inr ⟨?_, ?_, S, h1, nb, by omega, fun R f hR => ?_⟩)
    · show r.cells.length < r.cap
      rw [h1]
      simp
      omega
    · rw [h1]
      simp
      omega
    · have := h3 R f hR
      rwa [if_pos rfl] at this

/-! ### Adler-32 -/

theorem adlerSums_snoc (l : List UInt8) (v : UInt8) : adlerSums (l ++ [v]) =
    (((adlerSums l).1 + v.toNat) % 65521, ((adlerSums l).2 + ((adlerSums l).1 + v.toNat) % 65521) % 65521) := by
  simp [adlerSums]

theorem adler_block {data : List UInt8} {j n a b : Nat} (hn : n ≤ 5552) (hj : j + n ≤ data.length) (ha : a < 65521) (hb : b < 65521)
    (h : adlerSums (data.take j) = (a, b)) :
    Ok (forN n ((a, b) : Nat × Nat) fun i (s1, s2) => do
        let v ← rdIn data (j + i)
        let s1 := u32 (s1 + v.toNat)
        pure (s1, u32 (s2 + s1))) fun s => adlerSums (data.take (j + n)) = (s.1 % 65521, s.2 % 65521) := by
  refine (forN_ok (I := fun i (s : Nat × Nat) => s.1 ≤ 65520 + 255 * i ∧ 2 * s.2 ≤ 131040 * (i + 1) + 255 * (i * (i + 1)) ∧
    adlerSums (data.take (j + i)) = (s.1 % 65521, s.2 % 65521)) ?_ ?_).mono fun s hs => hs.2.2
  · refine ⟨by simp; omega, by simp; omega, ?_⟩
    rw [Nat.add_zero, h]
    simp [Nat.mod_eq_of_lt ha, Nat.mod_eq_of_lt hb]
  · rintro i hi ⟨s1, s2⟩ ⟨h1, h2, h3⟩
    simp only at h1 h2 h3 ⊢
    have hlt : j + i < data.length := by omega
    rw [rdIn_ok (List.getElem?_eq_getElem hlt), ok_bind]
    have hv : data[j + i].toNat < 256 := data[j + i].toNat_lt
    have hq : i * (i + 1) ≤ 5551 * 5552 := Nat.mul_le_mul (by omega) (by omega)
    have e : (i + 1) * (i + 1 + 1) = i * (i + 1) + 2 * (i + 1) := by ring
    generalize i * (i + 1) = Q at *
    have u1 : u32 (s1 + data[j + i].toNat) = s1 + data[j + i].toNat := u32_eq (by omega)
    rw [u1]
    have u2 : u32 (s2 + (s1 + data[j + i].toNat)) = s2 + (s1 + data[j + i].toNat) := u32_eq (by omega)
    rw [u2]
    refine Ok.pure' ⟨?_, ?_, ?_⟩
    · show s1 + _ ≤ _
      omega
    · show 2 * (s2 + (s1 + _)) ≤ _
      rw [e]
      omega
    · rw [← Nat.add_assoc, ← take_snoc hlt, adlerSums_snoc, h3]
      simp only [Prod.mk.injEq]
      constructor <;> omega

theorem adlerSums_lt (l : List UInt8) : (adlerSums l).1 < 65521 ∧ (adlerSums l).2 < 65521 := by
  induction l using List.reverseRecOn with
  | nil => decide
  | append_singleton l v _ =>
    rw [adlerSums_snoc]
    exact ⟨Nat.mod_lt _ (by decide), Nat.mod_lt _ (by decide)⟩

theorem adlerModel_ok (data : List UInt8) : adlerModel data = .ok (adlerSums data) := by
  have loop : ∀ fuel (s : Nat × Nat × Nat × Nat), s.1 ≤ data.length → adlerSums (data.take s.1) = (s.2.2.1, s.2.2.2) →
      (s.2.1 = 5552 ∧ (data.length - s.1) % 5552 = 0 ∧ data.length + 1 ≤ fuel + s.1) ∨
        (s.2.1 = data.length % 5552 ∧ s.1 = 0 ∧ data.length + 2 ≤ fuel) →
      Ok (whileFuel fuel s fun (j, blocklen, s1, s2) => do
        if j < data.length then do
          let (s1, s2) ← forN blocklen (s1, s2) fun i (s1, s2) => do
            let v ← rdIn data (j + i)
            let s1 := u32 (s1 + v.toNat)
            pure (s1, u32 (s2 + s1))
          pure ((j + blocklen, 5552, s1 % 65521, s2 % 65521), false)
        else pure ((j, blocklen, s1, s2), true)) fun r => adlerSums data = (r.2.2.1, r.2.2.2) := by
    intro fuel
    induction fuel with
    | zero => rintro ⟨j, bl, a, b⟩ h1 h2 h3; simp only at h1 h3; omega
    | succ fuel ih =>
      rintro ⟨j, bl, a, b⟩ h1 h2 h3
      simp only at h1 h2 h3
      rw [whileFuel]
      have hab := adlerSums_lt (data.take j)
      rw [h2] at hab
      by_cases h : j < data.length
      · simp only [h, if_true]
        have hbl : bl ≤ 5552 ∧ j + bl ≤ data.length := by omega
        obtain ⟨⟨a', b'⟩, e, hs⟩ := adler_block hbl.1 hbl.2 hab.1 hab.2 h2
        rw [e]
        simp only [ok_bind, pure_bind', Bool.false_eq_true, if_false]
        exact ih (j + bl, 5552, a' % 65521, b' % 65521) hbl.2 hs (Or.inl ⟨rfl, by show (data.length - (j + bl)) % 5552 = 0; omega,
          by show _ ≤ _ + (j + bl); omega⟩)
      · simp only [h, if_false, pure_bind', if_true]
        refine Ok.pure ?_
        rw [List.take_of_length_le (by omega)] at h2
        exact h2
  obtain ⟨r, e, hr⟩ := loop (data.length + 2) (0, data.length % 5552, 1, 0) (by simp) rfl (Or.inr ⟨rfl, rfl, le_rfl⟩)
  rw [adlerModel, e, hr]
  rfl

/-! ### The stream -/

theorem zlibRead_head (body : List UInt8) : zlibRead (0x78 :: 0x5e :: body) =
    match inflateBlocks (bitsOf body).length (bitsOf body) [] with
    | none => none
    | some (rest, out) => if rest.drop (rest.length % 8) = bitsOf (adler32 out) then some out else none := by
  simp only [zlibRead]
  exact if_pos (by decide)

theorem zlibRead_fixed {S : List UInt8} {data : List UInt8} {B pad : List Bool}
    (hb : bitsOf S = [true, true, false] ++ B ++ symBits 256 ++ pad) (hs : Steps B [] data) (hp : pad.length < 8) :
    zlibRead ([0x78, 0x5e] ++ (S ++ adler32 data)) = some data := by
  obtain ⟨k, hk, hst⟩ := hs
  have h256 := (symBits_length 256).1
  have e : inflateBlocks (bitsOf (S ++ adler32 data)).length (bitsOf (S ++ adler32 data)) [] = some (pad ++ bitsOf (adler32 data), data) := by
    rw [bitsOf_append, hb]
    generalize hfuel : ([true, true, false] ++ B ++ symBits 256 ++ pad ++ bitsOf (adler32 data)).length = fuel
    obtain ⟨f, rfl⟩ : ∃ f, fuel = f + 1 := ⟨fuel - 1, by rw [← hfuel]; simp⟩
    have e1 : takeNum 1 ([true, true, false] ++ B ++ symBits 256 ++ pad ++ bitsOf (adler32 data)) =
        some (1, [true, false] ++ (B ++ (symBits 256 ++ (pad ++ bitsOf (adler32 data))))) := by
      simp [takeNum, num]
    have e2 : takeNum 2 ([true, false] ++ (B ++ (symBits 256 ++ (pad ++ bitsOf (adler32 data))))) =
        some (1, B ++ (symBits 256 ++ (pad ++ bitsOf (adler32 data)))) := by
      simp [takeNum, num]
    have e3 : ∀ n, k < n → inflateSyms n (B ++ (symBits 256 ++ (pad ++ bitsOf (adler32 data)))) [] = some (pad ++ bitsOf (adler32 data), data) := by
      intro n hn
      obtain ⟨m, rfl⟩ : ∃ m, n = m + 1 + k := ⟨n - 1 - k, by omega⟩
      rw [hst, inflateSyms]
      have : readSym (symBits 256 ++ (pad ++ bitsOf (adler32 data))) = some (.stop, pad ++ bitsOf (adler32 data)) := by
        rw [readSym, fixedSym_symBits (by decide)]
        simp
      rw [this]
    rw [inflateBlocks, e1]
    simp only
    rw [e2]
    simp only
    rw [if_neg (by decide), if_pos trivial, e3 _ (by simp; omega)]
    simp
  rw [List.cons_append, List.cons_append, List.nil_append, zlibRead_head, e]
  simp only
  have : (pad ++ bitsOf (adler32 data)).length % 8 = pad.length := by
    simp [adler32, be16]
    omega
  rw [this, List.drop_left' rfl, if_pos rfl]

theorem zlibRead_stored {S : List UInt8} {data : List UInt8} {nb : Nat} (hn : nb ≤ S.length)
    (h : ∀ R f, R.length % 8 = 0 → inflateBlocks (f + nb) (bitsOf S ++ R) [] = some (R, data)) :
    zlibRead ([0x78, 0x5e] ++ (S ++ adler32 data)) = some data := by
  have e : inflateBlocks (bitsOf (S ++ adler32 data)).length (bitsOf (S ++ adler32 data)) [] = some (bitsOf (adler32 data), data) := by
    rw [bitsOf_append]
    generalize hfuel : (bitsOf S ++ bitsOf (adler32 data)).length = fuel
    obtain ⟨f, rfl⟩ : ∃ f, fuel = f + nb := ⟨fuel - nb, by rw [← hfuel]; simp; omega⟩
    exact h _ f (by simp)
  rw [List.cons_append, List.cons_append, List.nil_append, zlibRead_head, e]
  simp only
  rw [show (bitsOf (adler32 data)).length % 8 = 0 by simp, List.drop_zero, if_pos rfl]

/-- The compressor never fails for a reasonable amount of data, and its output is read back as the data. -/
theorem zlibBytes_ok {data : List UInt8} (h0 : 0 < data.length) (hd : data.length ≤ 600000000) (q : Nat) :
    Ok (zlibBytes data q) fun z => zlibRead z = some data ∧ z.length ≤ data.length + data.length / 8 + 14 := by
  rw [zlibBytes]
  refine Ok.bind (deflateFixed_ok hd) ?_
  rintro out ⟨hi, B, pad, hc, hc2, hb, hst, hpl, hB⟩
  have hol : out.cells.length ≤ data.length + data.length / 8 + 10 := by
    have := congrArg List.length hb
    have h256 := symBits_length_256 (n := 256) le_rfl
    simp at this
    omega
  refine Ok.bind (storeIfShorter_ok hd h0 hi hc) ?_
  intro o ho
  have hoi : o.Inv := by rcases ho with rfl | h; exact hi; exact h.1
  have hol' : o.cells.length ≤ data.length + data.length / 8 + 10 := by rcases ho with rfl | h; exact hol; exact h.2.1
  have hread : zlibRead (o.cells ++ adler32 data) = some data := by
    rcases ho with rfl | ⟨-, -, S, hS, nb, hn, hr⟩
    · have e : o.cells = [0x78, 0x5e] ++ o.cells.drop 2 := by rw [← hc, List.take_append_drop]
      rw [e, List.append_assoc]
      exact zlibRead_fixed hb hst hpl
    · rw [hS, List.append_assoc]
      exact zlibRead_stored hn hr
  rw [adlerModel_ok, ok_bind]
  have had : adler32 data = [u8 ((adlerSums data).2 / 256)] ++ [u8 (adlerSums data).2] ++ [u8 ((adlerSums data).1 / 256)] ++
      [u8 (adlerSums data).1] := rfl
  generalize hpq : adlerSums data = pq at had
  obtain ⟨s1, s2⟩ := pq
  simp only at had ⊢
  refine Ok.bind (sb_push hoi (by omega) _) ?_
  rintro o1 ⟨h1, i1, -⟩
  refine Ok.bind (sb_push i1 (by rw [h1]; simp; omega) _) ?_
  rintro o2 ⟨h2, i2, -⟩
  refine Ok.bind (sb_push i2 (by rw [h2, h1]; simp; omega) _) ?_
  rintro o3 ⟨h3, i3, -⟩
  refine Ok.bind (sb_push i3 (by rw [h3, h2, h1]; simp; omega) _) ?_
  rintro o4 ⟨h4, i4, -⟩
  refine Ok.pure' ⟨?_, ?_⟩
  · have e : o4.cells = o.cells ++ adler32 data := by
      rw [h4, h3, h2, h1, had]
      simp only [List.append_assoc]
    rw [e]
    exact hread
  · rw [h4, h3, h2, h1]
    simp
    omega

end FlatCV
