/-
What the compressor writes is read back by RFC 1951's rules: literals, repetitions, the whole block.
-/
import Verif.Lemmas.PngBits

namespace FlatCV
open Model Png

/-! ### Steps of the reader -/

/-- Reading the bits `B` after the output `a` leads to the output `b`. -/
def Steps (B : List Bool) (a b : List UInt8) : Prop :=
  ∃ k, k ≤ B.length ∧ ∀ rest f, inflateSyms (f + k) (B ++ rest) a = inflateSyms f rest b

theorem Steps.nil (a : List UInt8) : Steps [] a a := ⟨0, le_rfl, fun _ _ => rfl⟩

theorem Steps.trans {A B : List Bool} {a b c : List UInt8} (h1 : Steps A a b) (h2 : Steps B b c) : Steps (A ++ B) a c := by
  obtain ⟨k, hk, h1⟩ := h1
  obtain ⟨l, hl, h2⟩ := h2
  refine ⟨k + l, by simp; omega, fun rest f => ?_⟩
  rw [show f + (k + l) = (f + l) + k by omega, List.append_assoc, h1, h2]

theorem steps_literal (a : List UInt8) (v : UInt8) : Steps (symBits v.toNat) a (a ++ [v]) := by
  have hv : v.toNat < 256 := v.toNat_lt
  refine ⟨1, by have := (symBits_length v.toNat).1; omega, fun rest f => ?_⟩
  have e : readSym (symBits v.toNat ++ rest) = some (.literal v, rest) := by
    rw [readSym, fixedSym_symBits (by omega)]
    simp [hv]
  rw [inflateSyms, e]

/-- A repetition: the length has code `lj`, the distance code `dj`. -/
theorem steps_match {a b : List UInt8} {lj dj lb le l db de d : Nat} (h1 : lengthCodes[lj]? = some (lb, le)) (h2 : l < 2 ^ le)
    (h3 : distCodes[dj]? = some (db, de)) (h4 : d < 2 ^ de) (h5 : copyBack (db + d) (lb + l) a = some b) :
    Steps (symBits (lj + 257) ++ low l le ++ low (stbiw_zlib_bitrev dj 5 0) 5 ++ low d de) a b := by
  have hl : lj < 29 := by
    have := (List.getElem?_eq_some_iff.mp h1).1
    exact this
  have hd : dj < 30 := by
    have := (List.getElem?_eq_some_iff.mp h3).1
    exact this
  refine ⟨1, by have := (symBits_length (lj + 257)).1; simp; omega, fun rest f => ?_⟩
  have e1 : readLength (lj + 257) (low l le ++ (low (stbiw_zlib_bitrev dj 5 0) 5 ++ (low d de ++ rest))) =
      some (lb + l, low (stbiw_zlib_bitrev dj 5 0) 5 ++ (low d de ++ rest)) := by
    have es : lj + 257 - 257 = lj := by omega
    generalize lj + 257 = s at es
    simp only [readLength, es, h1, takeNum_low h2, Option.bind_some, Option.map_some]
  have e2 : readDist (low (stbiw_zlib_bitrev dj 5 0) 5 ++ (low d de ++ rest)) = some (db + d, rest) := by
    rw [readDist, if_pos (by simp), List.take_left' (by simp), dist_bits _ (by omega), h3]
    simp only
    rw [List.drop_left' (by simp), takeNum_low h4]
  have e : readSym (symBits (lj + 257) ++ (low l le ++ (low (stbiw_zlib_bitrev dj 5 0) 5 ++ (low d de ++ rest)))) =
      some (.copy (db + d) (lb + l), rest) := by
    rw [readSym, fixedSym_symBits (by omega)]
    simp only
    rw [if_neg (by omega), if_neg (by omega), e1]
    simp only
    rw [e2]
  simp only [List.append_assoc]
  rw [inflateSyms, e]
  simp only
  rw [h5]

theorem copyBack_take {data : List UInt8} {d n i : Nat} (hd : 0 < d) (hi : d ≤ i) (hn : i + n ≤ data.length)
    (h : ∀ k, k < n → data[i - d + k]? = data[i + k]?) : copyBack d n (data.take i) = some (data.take (i + n)) := by
  induction n generalizing i with
  | zero => rfl
  | succ n ih =>
    have hl : (data.take i).length = i := by simp; omega
    rw [copyBack, if_pos (by rw [hl]; exact ⟨hd, hi⟩), hl]
    have e : data.take i ++ [(data.take i).getD (i - d) 0] = data.take (i + 1) := by
      rw [List.take_add_one]
      congr 1
      have h0 := h 0 (by omega)
      simp only [Nat.add_zero] at h0
      rw [List.getD_eq_getElem?_getD, List.getElem?_take, if_pos (by omega), h0, List.getElem?_eq_getElem (by omega)]
      rfl
    rw [e, ih (by omega) (by omega), show i + 1 + n = i + (n + 1) by omega]
    intro k hk
    have := h (k + 1) (by omega)
    rw [show i + 1 - d + k = i - d + (k + 1) by omega, this, show i + 1 + k = i + (k + 1) by omega]

/-! ### Codes of lengths and distances -/

theorem findCode_ok {table : List Nat} {v : Nat} (h0 : ∀ t, table[0]? = some t → t ≤ v)
    (h1 : ∀ t, table[table.length - 1]? = some t → v < t) (h2 : 2 ≤ table.length) :
    Ok (findCode table v) fun j => ∃ a b, table[j]? = some a ∧ table[j + 1]? = some b ∧ a ≤ v ∧ v < b := by
  have key : ∀ fuel j, table.length ≤ j + fuel → j + 1 < table.length → (∀ t, table[j]? = some t → t ≤ v) →
      Ok (whileFuel fuel j fun j => do
        let t ← rdIn table (j + 1)
        if (v : Int) > t - 1 then pure (j + 1, false) else pure (j, true))
      fun j => ∃ a b, table[j]? = some a ∧ table[j + 1]? = some b ∧ a ≤ v ∧ v < b := by
    intro fuel
    induction fuel with
    | zero => intro j h1 h2; omega
    | succ fuel ih =>
      intro j hf hj hv
      have e : table[j + 1]? = some table[j + 1] := List.getElem?_eq_getElem hj
      rw [whileFuel, rdIn_ok e, ok_bind]
      by_cases h : (v : Int) > table[j + 1] - 1
      · simp only [h, if_true, pure_bind', Bool.false_eq_true, if_false]
        have hj' : j + 1 + 1 < table.length := by
          by_contra hc
          have := h1 table[j + 1] (by rw [show table.length - 1 = j + 1 by omega]; exact e)
          omega
        refine ih (j + 1) (by omega) hj' ?_
        intro t ht
        rw [e] at ht
        injection ht with ht
        omega
      · simp only [h, if_false, pure_bind', if_true]
        refine Ok.pure ⟨table[j], table[j + 1], List.getElem?_eq_getElem (by omega), e, ?_, by omega⟩
        exact hv _ (List.getElem?_eq_getElem (by omega))
  exact key _ 0 (by omega) (by omega) h0

theorem length_table : ∀ j < 29, ∃ a b eb, lengthc[j]? = some a ∧ lengthc[j + 1]? = some b ∧ lengtheb[j]? = some eb ∧
    lengthCodes[j]? = some (a, eb) ∧ b ≤ a + 2 ^ eb ∧ eb ≤ 5 ∧ (eb = 0 ∨ 11 ≤ a) := by
  have h : ∀ j < 29, lengthc[j]? = some (lengthc.getD j 0) ∧ lengthc[j + 1]? = some (lengthc.getD (j + 1) 0) ∧
      lengtheb[j]? = some (lengtheb.getD j 0) ∧ lengthCodes[j]? = some (lengthc.getD j 0, lengtheb.getD j 0) ∧
      lengthc.getD (j + 1) 0 ≤ lengthc.getD j 0 + 2 ^ lengtheb.getD j 0 ∧ lengtheb.getD j 0 ≤ 5 ∧
      (lengtheb.getD j 0 = 0 ∨ 11 ≤ lengthc.getD j 0) := by decide +kernel
  exact fun j hj => ⟨_, _, _, h j hj⟩

theorem dist_table : ∀ j < 30, ∃ a b eb, distc[j]? = some a ∧ distc[j + 1]? = some b ∧ disteb[j]? = some eb ∧
    distCodes[j]? = some (a, eb) ∧ b ≤ a + 2 ^ eb ∧ eb ≤ 13 := by
  have h : ∀ j < 30, distc[j]? = some (distc.getD j 0) ∧ distc[j + 1]? = some (distc.getD (j + 1) 0) ∧
      disteb[j]? = some (disteb.getD j 0) ∧ distCodes[j]? = some (distc.getD j 0, disteb.getD j 0) ∧
      distc.getD (j + 1) 0 ≤ distc.getD j 0 + 2 ^ disteb.getD j 0 ∧ disteb.getD j 0 ≤ 13 := by decide +kernel
  exact fun j hj => ⟨_, _, _, h j hj⟩

theorem addExtra_ok {table ebs : List Nat} {v j a eb : Nat} (h1 : table[j]? = some a) (h2 : ebs[j]? = some eb) (hv : v - a < 2 ^ eb)
    (he : eb ≤ 13) {w : BitW} (hw : w.Inv) (hl : w.bits.length ≤ 7000000000) :
    Ok (addExtra table ebs v j w) fun r => r.Inv ∧ r.bits = w.bits ++ low (v - a) eb := by
  rw [addExtra, rdIn_ok h2, ok_bind]
  by_cases h : eb ≠ 0
  · rw [if_pos h, rdIn_ok h1, ok_bind]
    exact zadd_ok hw hv (by omega) hl
  · rw [if_neg h]
    have : eb = 0 := by omega
    subst this
    exact Ok.pure' ⟨hw, by simp [low]⟩

/-- What is written for a repetition, with the number of bits. -/
theorem writeMatch_ok {best d : Nat} (hb : 3 ≤ best) (hb' : best ≤ 258) (hd : 0 < d) (hd' : d ≤ 32767) {w : BitW} (hw : w.Inv)
    (hl : w.bits.length ≤ 6000000000) {a b : List UInt8} (hc : copyBack d best a = some b) :
    Ok (writeMatch best d w) fun r => r.Inv ∧ ∃ B, r.bits = w.bits ++ B ∧ Steps B a b ∧ B.length ≤ 9 * best := by
  rw [writeMatch, if_pos ⟨hd', hb'⟩]
  refine Ok.bind (findCode_ok (table := lengthc) ?_ ?_ (by decide)) ?_
  · intro t ht
    have : t = 3 := by simpa [lengthc] using ht.symm
    omega
  · intro t ht
    have : t = 259 := by simpa [lengthc] using ht.symm
    omega
  rintro lj ⟨la, lb, h1, h2, h3, h4⟩
  have hlj : lj < 29 := by
    have : lj + 1 < 30 := (List.getElem?_eq_some_iff.mp h2).1
    omega
  obtain ⟨a', b', leb, e1, e2, e3, e4, e5, e6, e7⟩ := length_table lj hlj
  rw [h1] at e1
  injection e1 with e1
  subst e1
  rw [h2] at e2
  injection e2 with e2
  subst e2
  refine Ok.bind (huff_ok hw (lj + 257) (by omega)) ?_
  rintro w1 ⟨hw1, hb1⟩
  have hs9 := symBits_length_256 (n := lj + 257) (by omega)
  refine Ok.bind (addExtra_ok h1 e3 (by omega) (by omega) hw1 (by rw [hb1]; simp; omega)) ?_
  rintro w2 ⟨hw2, hb2⟩
  refine Ok.bind (findCode_ok (table := distc) ?_ ?_ (by decide)) ?_
  · intro t ht
    have : t = 1 := by simpa [distc] using ht.symm
    omega
  · intro t ht
    have : t = 32768 := by simpa [distc] using ht.symm
    omega
  rintro dj ⟨da, db, g1, g2, g3, g4⟩
  have hdj : dj < 30 := by
    have : dj + 1 < 31 := (List.getElem?_eq_some_iff.mp g2).1
    omega
  obtain ⟨a', b', deb, f1, f2, f3, f4, f5, f6⟩ := dist_table dj hdj
  rw [g1] at f1
  injection f1 with f1
  subst f1
  rw [g2] at f2
  injection f2 with f2
  subst f2
  refine Ok.bind (zadd_ok hw2 (c := stbiw_zlib_bitrev dj 5 0) (k := 5) ?_ (by omega) (by rw [hb2, hb1]; simp; omega)) ?_
  · exact bitrev_lt dj 5 0 0 (by decide)
  rintro w3 ⟨hw3, hb3⟩
  refine (addExtra_ok g1 f3 (by omega) (by omega) hw3 (by rw [hb3, hb2, hb1]; simp; omega)).mono ?_
  rintro w4 ⟨hw4, hb4⟩
  refine ⟨hw4, symBits (lj + 257) ++ low (best - la) leb ++ low (stbiw_zlib_bitrev dj 5 0) 5 ++ low (d - da) deb, ?_, ?_, ?_⟩
  · rw [hb4, hb3, hb2, hb1]
    simp only [List.append_assoc]
  · refine steps_match e4 (by omega) f4 (by omega) ?_
    rw [show da + (d - da) = d by omega, show la + (best - la) = best by omega]
    exact hc
  · simp only [List.length_append, low_length]
    have h7 : lj < 23 → (symBits (lj + 257)).length ≤ 7 := by
      intro hh
      rw [symBits, if_neg (by omega), if_neg (by omega), if_pos (by omega)]
      simp
    rcases e7 with e7 | e7
    · by_cases hh : lj < 23
      · have := h7 hh
        omega
      · have hlj' : lj = 28 := by
          revert e7 e3
          have : ∀ j < 29, 23 ≤ j → lengtheb[j]? = some 0 → j = 28 := by decide +kernel
          intro e3 e7
          subst e7
          exact this lj hlj (by omega) e3
        subst hlj'
        have : la = 258 := by simpa [lengthc] using h1.symm
        omega
    · omega

/-! ### Search -/

theorem countm_ok {data : List UInt8} {a b limit : Nat} (ha : a ≤ b) (hb : b + limit ≤ data.length) :
    Ok (stbiw_zlib_countm data a b limit) fun n => n ≤ limit ∧ n ≤ 258 ∧ ∀ k, k < n → data[a + k]? = data[b + k]? := by
  rw [stbiw_zlib_countm]
  refine (forBreak_ok (I := fun i n => n = i ∧ i ≤ limit ∧ i ≤ 258 ∧ ∀ k, k < i → data[a + k]? = data[b + k]?)
    (S := fun n => n ≤ limit ∧ n ≤ 258 ∧ ∀ k, k < n → data[a + k]? = data[b + k]?) ⟨rfl, by omega, by omega, by omega⟩ ?_).mono ?_
  · rintro j - hj s ⟨rfl, h1, h2, h3⟩
    have ea : data[a + s]? = some data[a + s] := List.getElem?_eq_getElem (by omega)
    have eb : data[b + s]? = some data[b + s] := List.getElem?_eq_getElem (by omega)
    rw [rdIn_ok ea, ok_bind, rdIn_ok eb, ok_bind]
    by_cases h : data[a + s] = data[b + s]
    · rw [if_pos h]
      refine Ok.pure' ?_
      simp only [Bool.false_eq_true, if_false]
      refine ⟨trivial, by omega, by omega, fun k hk => ?_⟩
      rcases Nat.lt_succ_iff_lt_or_eq.mp hk with hk | rfl
      · exact h3 k hk
      · rw [ea, eb, h]
    · rw [if_neg h]
      exact Ok.pure' (by simp only [if_true]; exact ⟨h1, h2, h3⟩)
  · rintro n (h | h)
    · exact h
    · rw [h.1]
      exact h.2

/-- A repetition that has been found. -/
def Found (data : List UInt8) (i : Nat) (st : Nat × Option Nat) : Prop :=
  ∀ p, st.2 = some p → p < i ∧ i < p + 32768 ∧ 3 ≤ st.1 ∧ st.1 ≤ 258 ∧ i + st.1 ≤ data.length ∧
    ∀ k, k < st.1 → data[p + k]? = data[i + k]?

theorem searchMatch_ok {data : List UInt8} {i : Nat} (hi : i ≤ data.length) {l : List Nat} (hl : ∀ p ∈ l, p < i)
    {st : Nat × Option Nat} (h : Found data i st) (h3 : 3 ≤ st.1) : Ok (searchMatch data i l st) fun r => Found data i r ∧ 3 ≤ r.1 := by
  induction l generalizing st with
  | nil => exact Ok.pure ⟨h, h3⟩
  | cons p l ih =>
    rw [searchMatch]
    have hp : p < i := hl p (by simp)
    have hl' : ∀ q ∈ l, q < i := fun q hq => hl q (by simp [hq])
    split_ifs with hw
    · refine Ok.bind (countm_ok (a := p) (b := i) (limit := data.length - i) (by omega) (by omega)) ?_
      rintro d ⟨h1, h2, h4⟩
      split_ifs with hd
      · refine ih hl' ?_ ?_
        · intro q hq
          injection hq with hq
          subst hq
          exact ⟨hp, by omega, by show 3 ≤ d; omega, h2, by show i + d ≤ _; omega, h4⟩
        · show 3 ≤ d
          omega
      · exact ih hl' h h3
    · exact ih hl' h h3

theorem searchBetter_ok {data : List UInt8} {i best : Nat} (hi : i + 1 ≤ data.length) {l : List Nat} (hl : ∀ p ∈ l, p ≤ i) :
    Ok (searchBetter data i best l) fun _ => True := by
  induction l with
  | nil => exact Ok.pure trivial
  | cons p l ih =>
    rw [searchBetter]
    have hp : p ≤ i := hl p (by simp)
    split_ifs with hw
    · refine Ok.bind (countm_ok (a := p) (b := i + 1) (limit := data.length - i - 1) (by omega) (by omega)) ?_
      rintro e -
      split_ifs
      · exact Ok.pure' trivial
      · exact ih fun q hq => hl q (by simp [hq])
    · exact ih fun q hq => hl q (by simp [hq])

theorem zhash_ok {data : List UInt8} {i : Nat} (h : i + 2 < data.length) : Ok (stbiw_zhash data i) fun _ => True := by
  rw [stbiw_zhash, rdIn_ok (List.getElem?_eq_getElem (by omega : i < data.length)), ok_bind,
    rdIn_ok (List.getElem?_eq_getElem (by omega : i + 1 < data.length)), ok_bind, rdIn_ok (List.getElem?_eq_getElem h), ok_bind]
  exact Ok.pure' trivial

/-! ### The loop -/

/-- The state before a round: `H` are the bits in front of the block's contents. -/
structure DInv (data : List UInt8) (H : List Bool) (s : Deflate) : Prop where
  le : s.i ≤ data.length
  old : ∀ k, ∀ p ∈ s.table k, p < s.i
  w : s.w.Inv
  bits : ∃ B, s.w.bits = H ++ B ∧ Steps B [] (data.take s.i) ∧ B.length ≤ 9 * s.i

theorem take_snoc {data : List UInt8} {i : Nat} (h : i < data.length) : data.take i ++ [data[i]] = data.take (i + 1) := by
  rw [List.take_add_one, List.getElem?_eq_getElem h]; rfl

theorem literal_ok {data : List UInt8} {H : List Bool} {i : Nat} {w : BitW} (hi : i < data.length) (hw : w.Inv)
    (hb : ∃ B, w.bits = H ++ B ∧ Steps B [] (data.take i) ∧ B.length ≤ 9 * i) (hl : H.length + 9 * data.length ≤ 6000000000) :
    Ok (do let v ← rdIn data i; stbiw_zlib_huff v.toNat w) fun r =>
      r.Inv ∧ ∃ B, r.bits = H ++ B ∧ Steps B [] (data.take (i + 1)) ∧ B.length ≤ 9 * (i + 1) := by
  obtain ⟨B, h1, h2, h3⟩ := hb
  rw [rdIn_ok (List.getElem?_eq_getElem hi), ok_bind]
  refine (huff_ok hw _ (by rw [h1]; simp; omega)).mono ?_
  rintro r ⟨hr, hrb⟩
  have h9 := (symBits_length data[i].toNat).2
  refine ⟨hr, B ++ symBits data[i].toNat, by rw [hrb, h1, List.append_assoc], ?_, by simp; omega⟩
  rw [← take_snoc hi]
  exact h2.trans (steps_literal _ _)

theorem deflateStep_ok {data : List UInt8} {q : Nat} {H : List Bool} {s : Deflate} (hs : DInv data H s) (hi : s.i + 3 < data.length)
    (hl : H.length + 9 * data.length ≤ 6000000000) :
    Ok (deflateStep data q s) fun r => DInv data H r ∧ s.i < r.i := by
  rw [deflateStep]
  refine Ok.bind (zhash_ok (by omega)) ?_
  rintro h -
  refine Ok.bind (searchMatch_ok (by omega) (hs.old _) (by intro p hp; simp at hp) le_rfl) ?_
  rintro ⟨best, loc⟩ ⟨hf, -⟩
  have htab : ∀ k, ∀ p ∈ tablePush q (h % 16384) s.i s.table k, p ≤ s.i := by
    intro k p hp
    rw [tablePush] at hp
    split_ifs at hp with h1 h2
    · rcases List.mem_append.mp hp with hp | hp
      · exact le_of_lt (hs.old _ p (List.mem_of_mem_drop hp))
      · simp at hp; omega
    · rcases List.mem_append.mp hp with hp | hp
      · exact le_of_lt (hs.old _ p hp)
      · simp at hp; omega
    · exact le_of_lt (hs.old _ p hp)
  simp only
  refine Ok.bind (P := fun l => ∀ p, l = some p → loc = some p) ?_ ?_
  · cases loc with
    | none => exact Ok.pure (by simp)
    | some p =>
      rw [lazyMatch]
      refine Ok.bind (zhash_ok (by omega)) ?_
      rintro h2 -
      refine Ok.bind (searchBetter_ok (by omega) (htab _)) ?_
      rintro better -
      refine Ok.pure' ?_
      cases better <;> simp
  · intro l hl2
    cases l with
    | none =>
      simp only
      have := literal_ok (by omega) hs.w hs.bits hl
      obtain ⟨w, e, hw, hb⟩ := this
      rw [rdIn_ok (List.getElem?_eq_getElem (by omega : s.i < data.length)), ok_bind] at e ⊢
      rw [e, ok_bind]
      refine Ok.pure' ⟨⟨?_, ?_, hw, hb⟩, by show s.i < s.i + 1; omega⟩
      · show s.i + 1 ≤ _
        omega
      · intro k p hp
        exact Nat.lt_succ_of_le (htab k p hp)
    | some p =>
      simp only
      obtain ⟨g1, g2, g3, g4, g5, g6⟩ := hf p (hl2 p rfl)
      simp only at g3 g4 g5 g6
      obtain ⟨B, h1, h2, h3⟩ := hs.bits
      have hcb : copyBack (s.i - p) best (data.take s.i) = some (data.take (s.i + best)) := by
        refine copyBack_take (by omega) (by omega) g5 fun k hk => ?_
        rw [show s.i - (s.i - p) + k = p + k by omega]
        exact g6 k hk
      refine Ok.bind (writeMatch_ok g3 g4 (d := s.i - p) (by omega) (by omega) hs.w (by rw [h1]; simp; omega) hcb) ?_
      rintro w ⟨hw, B', hb1, hb2, hb3⟩
      refine Ok.pure' ⟨⟨g5, ?_, hw, B ++ B', ?_, h2.trans hb2, ?_⟩, ?_⟩
      · intro k p hp
        have := htab k p hp
        show p < s.i + best
        omega
      · show w.bits = _
        rw [hb1, h1, List.append_assoc]
      · show (B ++ B').length ≤ 9 * (s.i + best)
        simp
        omega
      · show s.i < s.i + best
        omega

/-- The whole block: the header's bits, the contents, the end, padding up to a byte. -/
theorem deflateFixed_ok {data : List UInt8} {q : Nat} (hd : data.length ≤ 600000000) :
    Ok (deflateFixed data q) fun r => r.Inv ∧ ∃ B pad, r.cells.take 2 = [0x78, 0x5e] ∧ 2 ≤ r.cells.length ∧
      bitsOf (r.cells.drop 2) = [true, true, false] ++ B ++ symBits 256 ++ pad ∧ Steps B [] data ∧ pad.length < 8 ∧
      B.length ≤ 9 * data.length := by
  rw [deflateFixed]
  refine Ok.bind (sb_first _) ?_
  rintro o1 ⟨ho1, hi1⟩
  refine Ok.bind (sb_push hi1 (by simp [ho1]) _) ?_
  rintro o2 ⟨ho2, hi2, -⟩
  rw [ho1] at ho2
  refine Ok.bind (zadd_ok (w := ⟨o2, 0, 0⟩) ⟨hi2, by show 0 < 8; decide, by simp⟩ (by decide) (by decide) (by simp [BitW.bits, ho2])) ?_
  rintro w1 ⟨hw1, hb1⟩
  refine Ok.bind (zadd_ok hw1 (by decide) (by decide) (by rw [hb1]; simp [BitW.bits, ho2])) ?_
  rintro w2 ⟨hw2, hb2⟩
  have hH : w2.bits = bitsOf [0x78, 0x5e] ++ [true, true, false] := by
    rw [hb2, hb1]
    simp only [BitW.bits, ho2]
    simp [low]
  generalize hHg : bitsOf [0x78, 0x5e] ++ [true, true, false] = H at hH
  have hHl : H.length = 19 := by rw [← hHg]; simp
  have hbound : H.length + 9 * data.length ≤ 6000000000 := by omega
  -- the loop
  have loop : ∀ fuel (s : Deflate), data.length + 1 ≤ fuel + s.i → DInv data H s →
      Ok (whileFuel fuel s fun s => do
        if (s.i : Int) < data.length - 3 then do
          let s ← deflateStep data (if q < 5 then 5 else q) s
          pure (s, false)
        else pure (s, true)) fun r => DInv data H r := by
    intro fuel
    induction fuel with
    | zero =>
      intro s hf hs
      have := hs.le
      omega
    | succ fuel ih =>
      intro s hf hs
      rw [whileFuel]
      by_cases h : (s.i : Int) < data.length - 3
      · simp only [h, if_true]
        obtain ⟨r, e, hr, hlt⟩ := deflateStep_ok (q := if q < 5 then 5 else q) hs (by omega) hbound
        rw [e]
        simp only [ok_bind, pure_bind', Bool.false_eq_true, if_false]
        exact ih r (by omega) hr
      · simp only [h, if_false, pure_bind', if_true]
        exact Ok.pure hs
  refine Ok.bind (loop (data.length + 1) ⟨0, fun _ => [], w2⟩ (by show _ ≤ _ + 0; omega)
    ⟨by simp, by simp, hw2, [], by simp [hH], Steps.nil _, by simp⟩) ?_
  intro s hs
  refine Ok.bind (P := fun w => w.Inv ∧ ∃ B, w.bits = H ++ B ∧ Steps B [] data ∧ B.length ≤ 9 * data.length) ?_ ?_
  · rw [forFrom]
    refine (forN_ok (I := fun k w => w.Inv ∧ ∃ B, w.bits = H ++ B ∧ Steps B [] (data.take (s.i + k)) ∧ B.length ≤ 9 * (s.i + k))
      ⟨hs.w, hs.bits⟩ ?_).mono ?_
    · rintro k hk w ⟨hw, hb⟩
      have := hs.le
      exact literal_ok (by omega) hw hb hbound
    · rintro w ⟨hw, hb⟩
      have := hs.le
      rw [show s.i + (data.length - s.i) = data.length by omega, List.take_length] at hb
      exact ⟨hw, hb⟩
  rintro w3 ⟨hw3, B, hb3, hst, hlen⟩
  refine Ok.bind (huff_ok hw3 256 (by rw [hb3]; simp; omega)) ?_
  rintro w4 ⟨hw4, hb4⟩
  have hl4 : w4.bits.length ≤ 6000000010 := by
    rw [hb4, hb3]
    have := symBits_length_256 (n := 256) le_rfl
    simp
    omega
  have pad : ∀ k (w : BitW), 8 - w.bitcount ≤ k ∨ w.bitcount = 0 → w.Inv → w.bits.length + k ≤ 6000000100 → ∀ fuel, k < fuel →
      Ok (whileFuel fuel w fun w => do
        if w.bitcount ≠ 0 then do
          let w ← stbiw_zlib_add 0 1 w
          pure (w, false)
        else pure (w, true)) fun r => r.Inv ∧ r.bitcount = 0 ∧ ∃ p, r.bits = w.bits ++ p ∧ p.length ≤ k := by
    intro k
    induction k with
    | zero =>
      intro w hk hw hl fuel hf
      have h0 : w.bitcount = 0 := by
        have := hw.few
        omega
      obtain ⟨f, rfl⟩ : ∃ f, fuel = f + 1 := ⟨fuel - 1, by omega⟩
      rw [whileFuel]
      simp only [h0, ne_eq, not_true_eq_false, if_false, pure_bind', if_true]
      exact Ok.pure ⟨hw, h0, [], by simp, by simp⟩
    | succ k ih =>
      intro w hk hw hl fuel hf
      obtain ⟨f, rfl⟩ : ∃ f, fuel = f + 1 := ⟨fuel - 1, by omega⟩
      rw [whileFuel]
      by_cases h0 : w.bitcount = 0
      · simp only [h0, ne_eq, not_true_eq_false, if_false, pure_bind', if_true]
        exact Ok.pure ⟨hw, h0, [], by simp, by simp⟩
      · simp only [h0, ne_eq, not_false_eq_true, if_true]
        obtain ⟨w', e, hw', hb'⟩ := zadd_ok hw (c := 0) (k := 1) (by decide) (by decide) (by omega)
        rw [e]
        simp only [ok_bind, pure_bind', Bool.false_eq_true, if_false]
        have hcount : w'.bitcount = w.bitcount + 1 ∨ w'.bitcount = 0 := by
          have hlen := congrArg List.length hb'
          have f1 := hw.few
          have f2 := hw'.few
          simp [BitW.bits] at hlen
          omega
        refine (ih w' (by omega) hw' (by rw [hb']; simp; omega) f (by omega)).mono ?_
        rintro r ⟨h1, h2, p, h3, h4⟩
        exact ⟨h1, h2, low 0 1 ++ p, by rw [h3, hb', List.append_assoc], by simp; omega⟩
  have few := hw4.few
  refine Ok.bind (pad 7 w4 (by omega) hw4 (by omega) _ (by omega)) ?_
  rintro w5 ⟨hw5, h0, p, hp, hpl⟩
  refine Ok.pure' ⟨hw5.sb, B, p, ?_⟩
  have hbits : bitsOf w5.out.cells = bitsOf [0x78, 0x5e] ++ ([true, true, false] ++ B ++ symBits 256 ++ p) := by
    have : w5.bits = bitsOf w5.out.cells := by simp [BitW.bits, h0, low]
    rw [← this, hp, hb4, hb3, ← hHg]
    simp only [List.append_assoc]
  have h2 : 2 ≤ w5.out.cells.length := by
    have := congrArg List.length hbits
    simp at this
    omega
  have hsplit : bitsOf (w5.out.cells.take 2) ++ bitsOf (w5.out.cells.drop 2) = bitsOf w5.out.cells := by
    rw [← bitsOf_append, List.take_append_drop]
  rw [hbits] at hsplit
  obtain ⟨e1, e2⟩ := List.append_inj hsplit (by simp; omega)
  refine ⟨bitsOf_inj e1, h2, e2, hst, by omega, hlen⟩

end FlatCV
