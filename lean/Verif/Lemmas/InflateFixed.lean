/-
Streams with the fixed codes only, as in Spec/Png.lean, are read the same way by Spec/Inflate.lean.
-/
import Verif.Lemmas.InflateZlib

namespace FlatCV

open FlatCV.Model FlatCV.Png

/-- A code of `n` bits comes next. -/
theorem readCode_msb {lens : List Nat} (hf : Feasible lens) (h15 : ∀ i, lens.getD i 0 ≤ 15) {bs : List Bool} {s n : Nat} (hs : s < lens.length)
    (hn : lens.getD s 0 = n) (h0 : n ≠ 0) (hl : n ≤ bs.length) (hc : codeOf lens s = msb (bs.take n)) :
    readCode lens bs = some (s, bs.drop n) := by
  have h1 : codeBits lens s <+: bs := by
    have h2 : codeBits lens s = bs.take n := by
      rw [codeBits_eq, hn, hc, msb_eq]
      have := low_of_num (bs.take n).reverse
      rw [List.length_reverse, List.length_take, Nat.min_eq_left hl] at this
      rw [this, List.reverse_reverse]
    rw [h2]
    exact List.take_prefix n bs
  rw [prefix_iff hf h15 hs (by rw [hn]; exact h0)] at h1
  have := readCode_eq hf h15 h1.2 h1.1
  rwa [hn] at this

theorem fixedLit_codes : ∀ s, s < 288 → (s < 144 → codeOf fixedLit s = s + 48 ∧ fixedLit.getD s 0 = 8) ∧
    (144 ≤ s → s < 256 → codeOf fixedLit s = s + 256 ∧ fixedLit.getD s 0 = 9) ∧
    (256 ≤ s → s < 280 → codeOf fixedLit s = s - 256 ∧ fixedLit.getD s 0 = 7) ∧
    (280 ≤ s → codeOf fixedLit s = s - 88 ∧ fixedLit.getD s 0 = 8) := by decide +kernel

theorem fixedDist_codes : ∀ s, s < 32 → codeOf fixedDist s = s ∧ fixedDist.getD s 0 = 5 := by decide +kernel

theorem msb_lt (l : List Bool) : msb l < 2 ^ l.length := by
  rw [msb_eq]
  have := num_lt l.reverse
  rwa [List.length_reverse] at this

theorem fixedSym_read {bs rest : List Bool} {s : Nat} (h : fixedSym bs = some (s, rest)) : readCode fixedLit bs = some (s, rest) := by
  have hlen : fixedLit.length = 288 := by rw [fixedLit, List.length_map, List.length_range]
  have hl15 := getD_le fixedLit_le
  have key : ∀ n s, s < 288 → fixedLit.getD s 0 = n → n ≠ 0 → n ≤ bs.length → codeOf fixedLit s = msb (bs.take n) →
      readCode fixedLit bs = some (s, bs.drop n) :=
    fun n s h1 h2 h3 h4 h5 => readCode_msb fixedLit_feasible hl15 (by rw [hlen]; exact h1) h2 h3 h4 h5
  rw [fixedSym] at h
  split_ifs at h with h1 h2 h3 h4
  · obtain ⟨rfl, rfl⟩ := Prod.mk.inj (Option.some.inj h)
    obtain ⟨e1, e2⟩ := (fixedLit_codes (256 + msb (bs.take 7)) (by omega)).2.2.1 (by omega) (by omega)
    exact key 7 _ (by omega) e2 (by norm_num) h1.1 (by omega)
  · obtain ⟨rfl, rfl⟩ := Prod.mk.inj (Option.some.inj h)
    by_cases h5 : msb (bs.take 8) - 48 < 144
    · obtain ⟨e1, e2⟩ := (fixedLit_codes (msb (bs.take 8) - 48) (by omega)).1 (by omega)
      exact key 8 _ (by omega) e2 (by norm_num) h2.1 (by omega)
    · omega
  · obtain ⟨rfl, rfl⟩ := Prod.mk.inj (Option.some.inj h)
    obtain ⟨e1, e2⟩ := (fixedLit_codes (280 + (msb (bs.take 8) - 192)) (by omega)).2.2.2 (by omega)
    exact key 8 _ (by omega) e2 (by norm_num) h3.1 (by omega)
  · obtain ⟨rfl, rfl⟩ := Prod.mk.inj (Option.some.inj h)
    have h6 := msb_lt (bs.take 9)
    rw [List.length_take, Nat.min_eq_left h4.1, show (2 : Nat) ^ 9 = 512 from rfl] at h6
    obtain ⟨e1, e2⟩ := (fixedLit_codes (144 + (msb (bs.take 9) - 400)) (by omega)).2.1 (by omega) (by omega)
    exact key 9 _ (by omega) e2 (by norm_num) h4.1 (by omega)

theorem readDist_read {bs rest : List Bool} {d : Nat} (h : readDist bs = some (d, rest)) : readDistWith fixedDist bs = some (d, rest) := by
  have hlen : fixedDist.length = 32 := by rw [fixedDist, List.length_replicate]
  rw [readDist] at h
  by_cases h5 : 5 ≤ bs.length
  · rw [if_pos h5] at h
    have h6 := msb_lt (bs.take 5)
    rw [List.length_take, Nat.min_eq_left h5, show (2 : Nat) ^ 5 = 32 from rfl] at h6
    obtain ⟨e1, e2⟩ := fixedDist_codes _ h6
    rw [readDistWith, readCode_msb fixedDist_feasible (getD_le fixedDist_le) (by rw [hlen]; exact h6) e2 (by norm_num) h5 e1, Option.bind_some]
    simp only
    cases hc : distCodes[msb (bs.take 5)]? with
    | none => rw [hc] at h; cases h
    | some c =>
      rw [hc] at h
      obtain ⟨db, de⟩ := c
      rw [Option.bind_some]
      simp only at h ⊢
      cases ht : takeNum de (bs.drop 5) with
      | none => rw [ht] at h; cases h
      | some p =>
        rw [ht] at h
        exact h
  · rw [if_neg h5] at h
    cases h

theorem readSym_read {bs rest : List Bool} {s : Sym} (h : readSym bs = some (s, rest)) : readSymWith fixedLit fixedDist bs = some (s, rest) := by
  rw [readSym] at h
  cases h1 : fixedSym bs with
  | none => rw [h1] at h; cases h
  | some p =>
    obtain ⟨c, bs1⟩ := p
    rw [h1] at h
    rw [readSymWith, fixedSym_read h1, Option.bind_some]
    simp only at h ⊢
    split_ifs at h ⊢ with h2 h3
    · exact h
    · exact h
    · cases h4 : readLength c bs1 with
      | none => rw [h4] at h; cases h
      | some q =>
        obtain ⟨n, bs2⟩ := q
        rw [h4] at h
        rw [Option.bind_some]
        simp only at h ⊢
        cases h5 : readDist bs2 with
        | none => rw [h5] at h; cases h
        | some r =>
          obtain ⟨d, bs3⟩ := r
          rw [h5] at h
          rw [readDist_read h5]
          exact h

theorem inflateSyms_read : ∀ (f : Nat) {g : Nat} {bs : List Bool} {l : List UInt8} {r : List Bool × List UInt8}, f ≤ g → inflateSyms f bs l = some r →
    inflateWith fixedLit fixedDist g bs l = some r
  | 0, _, _, _, _, _, h => by cases h
  | f + 1, 0, _, _, _, hg, _ => by omega
  | f + 1, g + 1, bs, l, r, hg, h => by
    rw [inflateSyms] at h
    cases h1 : readSym bs with
    | none => rw [h1] at h; cases h
    | some p =>
      obtain ⟨s, bs1⟩ := p
      rw [h1] at h
      rw [inflateWith, readSym_read h1, Option.bind_some]
      cases s with
      | literal b => exact inflateSyms_read f (by omega) h
      | stop => exact h
      | copy d n =>
        simp only at h ⊢
        cases h2 : copyBack d n l with
        | none => rw [h2] at h; cases h
        | some m =>
          rw [h2] at h
          rw [Option.bind_some]
          exact inflateSyms_read f (by omega) h

theorem inflateBlocks_read : ∀ (f : Nat) {g : Nat} {bs : List Bool} {l : List UInt8} {r : List Bool × List UInt8}, f ≤ g →
    inflateBlocks f bs l = some r → inflateAll g bs l = some r
  | 0, _, _, _, _, _, h => by cases h
  | f + 1, 0, _, _, _, hg, _ => by omega
  | f + 1, g + 1, bs, l, r, hg, h => by
    rw [inflateBlocks] at h
    cases h1 : takeNum 1 bs with
    | none => rw [h1] at h; cases h
    | some p =>
      obtain ⟨final, bs1⟩ := p
      rw [h1] at h
      rw [inflateAll, h1, Option.bind_some]
      simp only at h ⊢
      cases h2 : takeNum 2 bs1 with
      | none => rw [h2] at h; cases h
      | some p =>
        obtain ⟨type, bs2⟩ := p
        rw [h2] at h
        rw [Option.bind_some]
        simp only at h ⊢
        cases h3 : (if type = 0 then inflateStored bs2 l else if type = 1 then inflateSyms bs2.length bs2 l else none) with
        | none => rw [h3] at h; cases h
        | some p =>
          rw [h3] at h
          have h4 : inflateBlock type bs2 l = some p := by
            rw [inflateBlock]
            split_ifs at h3 ⊢
            · exact h3
            · exact inflateSyms_read _ (by omega) h3
          rw [h4, Option.bind_some]
          obtain ⟨bs3, l3⟩ := p
          simp only at h ⊢
          split_ifs at h ⊢
          · exact h
          · exact inflateBlocks_read f (by omega) h

theorem zlibRead_decode {l out : List UInt8} (h : zlibRead l = some out) : zlibDecode l = some out := by
  match l with
  | [] => cases h
  | [_] => cases h
  | cmf :: flg :: body =>
    rw [zlibRead] at h
    rw [zlibDecode]
    by_cases hh : cmf.toNat % 16 = 8 ∧ cmf.toNat / 16 ≤ 7 ∧ (cmf.toNat * 256 + flg.toNat) % 31 = 0 ∧ flg.toNat.testBit 5 = false
    · rw [if_pos (show zlibHeader cmf flg from hh)]
      rw [if_pos hh] at h
      cases h1 : inflateBlocks (bitsOf body).length (bitsOf body) [] with
      | none => rw [h1] at h; cases h
      | some p =>
        rw [h1] at h
        rw [inflateBlocks_read _ (by omega) h1, Option.bind_some]
        exact h
    · rw [if_neg hh] at h
      cases h

end FlatCV
