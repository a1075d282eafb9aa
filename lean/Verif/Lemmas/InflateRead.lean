/-
The reader of the specification on the bits as a number.
-/
import Verif.Spec.Inflate
import Verif.Lemmas.InflateCanon

namespace FlatCV.Png

theorem num_mod_take (bs : List Bool) {n : Nat} (h : n ≤ bs.length) : num (bs.take n) = num bs % 2 ^ n := by
  conv_rhs => rw [← List.take_append_drop n bs, num_append]
  rw [List.length_take, Nat.min_eq_left h, Nat.add_mul_mod_self_right, Nat.mod_eq_of_lt]
  have := num_lt (bs.take n)
  rwa [List.length_take, Nat.min_eq_left h] at this

theorem num_drop (bs : List Bool) (n : Nat) : num (bs.drop n) = num bs / 2 ^ n := by
  by_cases h : n ≤ bs.length
  · conv_rhs => rw [← List.take_append_drop n bs, num_append]
    rw [List.length_take, Nat.min_eq_left h, Nat.add_mul_div_right _ _ (by positivity), Nat.div_eq_of_lt, Nat.zero_add]
    have := num_lt (bs.take n)
    rwa [List.length_take, Nat.min_eq_left h] at this
  · rw [List.drop_of_length_le (by omega), Nat.div_eq_of_lt]
    · rfl
    · exact lt_of_lt_of_le (num_lt bs) (Nat.pow_le_pow_right (by norm_num) (by omega))

theorem takeNum_eq {bs : List Bool} {n : Nat} (h : n ≤ bs.length) : takeNum n bs = some (num bs % 2 ^ n, bs.drop n) := by
  rw [takeNum, if_pos h, num_mod_take bs h]

theorem takeNum_some {bs rest : List Bool} {n v : Nat} (h : takeNum n bs = some (v, rest)) :
    n ≤ bs.length ∧ v = num bs % 2 ^ n ∧ rest = bs.drop n := by
  by_cases hn : n ≤ bs.length
  · rw [takeNum_eq hn] at h
    cases h
    exact ⟨hn, rfl, rfl⟩
  · rw [takeNum, if_neg hn] at h
    cases h

theorem take_eq_low (bs : List Bool) {n : Nat} (h : n ≤ bs.length) : bs.take n = low (num bs) n := by
  have := low_of_num (bs.take n)
  rw [List.length_take, Nat.min_eq_left h, num_mod_take bs h, low_mod _ _ _ le_rfl] at this
  exact this.symm

theorem codeBits_eq (lens : List Nat) (i : Nat) : codeBits lens i = (low (codeOf lens i) (lens.getD i 0)).reverse := by
  rw [codeBits, low_range]

theorem codeBits_length (lens : List Nat) (i : Nat) : (codeBits lens i).length = lens.getD i 0 := by
  rw [codeBits_eq, List.length_reverse, low_length]

/-- The code of a symbol comes next. -/
theorem prefix_iff {lens : List Nat} (hf : Feasible lens) (h15 : ∀ i, lens.getD i 0 ≤ 15) {bs : List Bool} {i : Nat}
    (hi : i < lens.length) (h0 : lens.getD i 0 ≠ 0) :
    codeBits lens i <+: bs ↔ lens.getD i 0 ≤ bs.length ∧ Starts lens (rev (num bs) 16) i := by
  have hc := codeOf_lt lens hi h0
  have hc2 := hf.le _ (h15 i)
  have h16 : lens.getD i 0 ≤ 16 := by have := h15 i; omega
  rw [List.prefix_iff_eq_take, codeBits_length]
  constructor
  · intro h
    have hl : lens.getD i 0 ≤ bs.length := by
      have := congrArg List.length h
      rw [codeBits_length, List.length_take] at this
      omega
    refine ⟨hl, hi, h0, h15 i, ?_⟩
    rw [take_eq_low bs hl, codeBits_eq] at h
    rw [← rev_div _ h16, rev, ← h, List.reverse_reverse, low_num (by omega)]
  · rintro ⟨hl, _, _, _, hk⟩
    rw [take_eq_low bs hl, codeBits_eq]
    rw [← rev_div _ h16] at hk
    rw [← hk, low_rev, List.reverse_reverse]

theorem readCode_some {lens : List Nat} (hf : Feasible lens) (h15 : ∀ i, lens.getD i 0 ≤ 15) {bs : List Bool} {r : Nat × List Bool}
    (h : readCode lens bs = some r) : Starts lens (rev (num bs) 16) r.1 ∧ lens.getD r.1 0 ≤ bs.length ∧ r.2 = bs.drop (lens.getD r.1 0) := by
  rw [readCode, Option.map_eq_some_iff] at h
  obtain ⟨i, hi, rfl⟩ := h
  have h1 := List.find?_some hi
  have h2 := List.mem_of_find?_eq_some hi
  rw [Bool.and_eq_true, decide_eq_true_eq, List.isPrefixOf_iff_prefix] at h1
  rw [List.mem_range] at h2
  obtain ⟨h3, h4⟩ := (prefix_iff hf h15 h2 h1.1).1 h1.2
  exact ⟨h4, h3, rfl⟩

theorem readCode_eq {lens : List Nat} (hf : Feasible lens) (h15 : ∀ i, lens.getD i 0 ≤ 15) {bs : List Bool} {i : Nat}
    (h : Starts lens (rev (num bs) 16) i) (hl : lens.getD i 0 ≤ bs.length) : readCode lens bs = some (i, bs.drop (lens.getD i 0)) := by
  cases hr : readCode lens bs with
  | some r =>
    obtain ⟨h1, _, h3⟩ := readCode_some hf h15 hr
    have := h1.unique h
    rw [← this, ← h3]
  | none =>
    exfalso
    rw [readCode, Option.map_eq_none_iff, List.find?_eq_none] at hr
    refine hr i (List.mem_range.2 h.1) ?_
    rw [Bool.and_eq_true, decide_eq_true_eq, List.isPrefixOf_iff_prefix]
    exact ⟨h.2.1, (prefix_iff hf h15 h.1 h.2.1).2 ⟨hl, h⟩⟩

end FlatCV.Png
