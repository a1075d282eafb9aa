/-
Canonical Huffman codes are prefix-free: the codes, extended to 16 bits, are disjoint intervals, one after the other.
-/
import Verif.Spec.Huffman
import Verif.Lemmas.InflateBits
import Mathlib.Tactic.Linarith
import Mathlib.Tactic.Ring

namespace FlatCV.Png

/-- The number of symbols with shorter codes. -/
def firstSym (lens : List Nat) : Nat → Nat
  | 0 => 0
  | s + 1 => firstSym lens s + lenCount lens s

/-- The end of the interval of the codes of length at most `s`. -/
def codeEnd (lens : List Nat) (s : Nat) : Nat := (firstCode lens s + lenCount lens s) * 2 ^ (16 - s)

theorem countP_count (l : List Nat) {s : Nat} (h : s ≠ 0) :
    (l.countP fun x => decide (0 < x ∧ x < s)) + l.count s = l.countP fun x => decide (0 < x ∧ x < s + 1) := by
  rw [List.count]
  induction l with
  | nil => rfl
  | cons a l ih =>
    simp only [List.countP_cons, decide_eq_true_eq, beq_iff_eq]
    have : (if 0 < a ∧ a < s + 1 then 1 else 0) = (if 0 < a ∧ a < s then 1 else 0) + (if a = s then 1 else 0) := by
      by_cases h1 : a = s
      · rw [if_pos h1, if_pos (by omega), if_neg (by omega)]
      · by_cases h2 : 0 < a ∧ a < s
        · rw [if_pos h2, if_neg h1, if_pos (by omega)]
        · rw [if_neg h2, if_neg h1, if_neg (by omega)]
    omega

theorem firstSym_eq (lens : List Nat) (s : Nat) : firstSym lens s = lens.countP fun x => decide (0 < x ∧ x < s) := by
  induction s with
  | zero =>
    rw [firstSym, eq_comm, List.countP_eq_zero]
    simp
  | succ s ih =>
    rw [firstSym, ih, lenCount]
    by_cases h : s = 0
    · subst h
      rw [if_pos rfl, Nat.add_zero]
      refine List.countP_congr fun x _ => ?_
      simp only [decide_eq_true_eq]
      omega
    · rw [if_neg h, countP_count lens h]

theorem firstSym_le (lens : List Nat) (s : Nat) : firstSym lens s ≤ lens.length := by
  rw [firstSym_eq]
  exact List.countP_le_length

theorem firstSym_mono (lens : List Nat) {s t : Nat} (h : s ≤ t) : firstSym lens s ≤ firstSym lens t := by
  induction h with
  | refl => exact le_rfl
  | step _ ih => rw [firstSym]; omega

/-! ### Ranks -/

theorem getD_of_lt (lens : List Nat) {i : Nat} (h : i < lens.length) : lens.getD i 0 = lens[i] := by
  rw [List.getD_eq_getElem?_getD, List.getElem?_eq_getElem h]; rfl

theorem take_count_succ (lens : List Nat) {i : Nat} (h : i < lens.length) (s : Nat) :
    (lens.take (i + 1)).count s = (lens.take i).count s + if lens.getD i 0 = s then 1 else 0 := by
  rw [List.take_add_one, List.getElem?_eq_getElem h, List.count_append, getD_of_lt lens h]
  simp only [Option.toList_some, List.count_singleton, beq_iff_eq]

theorem take_count_le (lens : List Nat) (i s : Nat) : (lens.take i).count s ≤ lens.count s :=
  List.Sublist.count_le s (List.take_sublist i lens)

theorem take_count_mono (lens : List Nat) {i j : Nat} (h : i ≤ j) (s : Nat) : (lens.take i).count s ≤ (lens.take j).count s := by
  have := take_count_le (lens.take j) i s
  rwa [List.take_take, Nat.min_eq_left h] at this

theorem rank_lt (lens : List Nat) {i : Nat} (h : i < lens.length) :
    (lens.take i).count (lens.getD i 0) < lens.count (lens.getD i 0) := by
  have h1 := take_count_succ lens h (lens.getD i 0)
  have h2 := take_count_le lens (i + 1) (lens.getD i 0)
  rw [if_pos rfl] at h1
  omega

theorem rank_lt_of_lt (lens : List Nat) {i j : Nat} (hi : i < j) (hj : j < lens.length) (h : lens.getD i 0 = lens.getD j 0) :
    (lens.take i).count (lens.getD i 0) < (lens.take j).count (lens.getD j 0) := by
  have h1 := take_count_succ lens (show i < lens.length by omega) (lens.getD i 0)
  have h2 := take_count_mono lens (show i + 1 ≤ j by omega) (lens.getD i 0)
  rw [if_pos rfl] at h1
  rw [← h]
  omega

theorem rank_inj (lens : List Nat) {i j : Nat} (hi : i < lens.length) (hj : j < lens.length) (h : lens.getD i 0 = lens.getD j 0)
    (hr : (lens.take i).count (lens.getD i 0) = (lens.take j).count (lens.getD j 0)) : i = j := by
  rcases Nat.lt_trichotomy i j with h1 | h1 | h1
  · have := rank_lt_of_lt lens h1 hj h
    omega
  · exact h1
  · have := rank_lt_of_lt lens h1 hi h.symm
    omega

theorem exists_rank (lens : List Nat) {s r : Nat} (h : r < lens.count s) :
    ∃ i, i < lens.length ∧ lens.getD i 0 = s ∧ (lens.take i).count s = r := by
  have : ∀ n, n ≤ lens.length → r < (lens.take n).count s →
      ∃ i, i < lens.length ∧ lens.getD i 0 = s ∧ (lens.take i).count s = r := by
    intro n
    induction n with
    | zero => intro _ h; simp at h
    | succ n ih =>
      intro hn h
      by_cases h1 : r < (lens.take n).count s
      · exact ih (by omega) h1
      · have h2 := take_count_succ lens (show n < lens.length by omega) s
        by_cases h3 : lens.getD n 0 = s
        · rw [if_pos h3] at h2
          exact ⟨n, by omega, h3, by omega⟩
        · rw [if_neg h3] at h2
          omega
  exact this lens.length le_rfl (by rwa [List.take_length])

theorem lenCount_pos (lens : List Nat) {s : Nat} (h : s ≠ 0) : lenCount lens s = lens.count s := if_neg h

/-! ### Intervals -/

theorem Feasible.le {lens : List Nat} (h : Feasible lens) : ∀ s, s ≤ 15 → firstCode lens s + lenCount lens s ≤ 2 ^ s
  | 0, _ => by simp [firstCode, lenCount]
  | s + 1, hs => by
    by_cases hc : lenCount lens (s + 1) = 0
    · have := h.le s (by omega)
      rw [hc, firstCode, pow_succ]
      omega
    · exact h (s + 1) (by omega) hc

theorem Feasible.first_le {lens : List Nat} (h : Feasible lens) (s : Nat) (hs : s ≤ 15) : firstCode lens s ≤ 2 ^ s := by
  have := h.le s hs
  omega

theorem codeEnd_zero (lens : List Nat) : codeEnd lens 0 = 0 := by simp [codeEnd, firstCode, lenCount]

/-- Each length starts where the shorter ones end. -/
theorem codeEnd_start (lens : List Nat) {s : Nat} (hs : s ≤ 15) : firstCode lens (s + 1) * 2 ^ (16 - (s + 1)) = codeEnd lens s := by
  rw [codeEnd, firstCode, show 16 - s = (16 - (s + 1)) + 1 by omega, pow_succ]
  ring

theorem codeEnd_mono (lens : List Nat) {s t : Nat} (h : s ≤ t) (ht : t ≤ 16) : codeEnd lens s ≤ codeEnd lens t := by
  induction h with
  | refl => exact le_rfl
  | @step t _ ih =>
    refine le_trans (ih (by omega)) ?_
    rw [← codeEnd_start lens (show t ≤ 15 by omega), codeEnd, Nat.succ_eq_add_one]
    exact Nat.mul_le_mul_right _ (by omega)

theorem Feasible.end_le {lens : List Nat} (h : Feasible lens) {s : Nat} (hs : s ≤ 15) : codeEnd lens s ≤ 65536 := by
  have h1 := Nat.mul_le_mul_right (2 ^ (16 - s)) (h.le s hs)
  rw [← pow_add, show s + (16 - s) = 16 by omega] at h1
  exact h1

/-- The 16 bits `k` start with the code of symbol `i`. -/
def Starts (lens : List Nat) (k i : Nat) : Prop :=
  i < lens.length ∧ lens.getD i 0 ≠ 0 ∧ lens.getD i 0 ≤ 15 ∧ k / 2 ^ (16 - lens.getD i 0) = codeOf lens i

theorem codeOf_lt (lens : List Nat) {i : Nat} (hi : i < lens.length) (h0 : lens.getD i 0 ≠ 0) :
    codeOf lens i < firstCode lens (lens.getD i 0) + lenCount lens (lens.getD i 0) := by
  have := rank_lt lens hi
  rw [codeOf, lenCount_pos lens h0]
  omega

theorem Starts.lt_end {lens : List Nat} {k i : Nat} (h : Starts lens k i) : k < codeEnd lens (lens.getD i 0) := by
  obtain ⟨hi, h0, h15, hk⟩ := h
  have h1 := codeOf_lt lens hi h0
  rw [← hk] at h1
  rw [codeEnd]
  exact (Nat.div_lt_iff_lt_mul (by positivity)).1 h1

theorem Starts.ge_end {lens : List Nat} {k i s : Nat} (h : Starts lens k i) (hs : s < lens.getD i 0) : codeEnd lens s ≤ k := by
  obtain ⟨hi, h0, h15, hk⟩ := h
  obtain ⟨d, hd⟩ : ∃ d, lens.getD i 0 = d + 1 := ⟨lens.getD i 0 - 1, by omega⟩
  refine le_trans (codeEnd_mono lens (show s ≤ d by omega) (by omega)) ?_
  rw [← codeEnd_start lens (show d ≤ 15 by omega), ← hd]
  refine le_trans (Nat.mul_le_mul_right _ (show _ ≤ k / 2 ^ (16 - lens.getD i 0) by rw [hk, codeOf]; omega)) (Nat.div_mul_le_self _ _)

/-- No code is a prefix of another one. -/
theorem Starts.unique {lens : List Nat} {k i j : Nat} (hi : Starts lens k i) (hj : Starts lens k j) : i = j := by
  rcases Nat.lt_trichotomy (lens.getD i 0) (lens.getD j 0) with h | h | h
  · have := hi.lt_end
    have := hj.ge_end h
    omega
  · refine rank_inj lens hi.1 hj.1 h ?_
    have h1 := hi.2.2.2
    have h2 := hj.2.2.2
    rw [h, h2, codeOf, codeOf, ← h] at h1
    rw [h] at h1 ⊢
    omega
  · have := hj.lt_end
    have := hi.ge_end h
    omega

/-- Everything below the end of the code starts with a code. -/
theorem exists_starts {lens : List Nat} {k s : Nat} (hs : s ≤ 15) (h0 : s ≠ 0) (hk : k < codeEnd lens s)
    (hl : codeEnd lens (s - 1) ≤ k) : ∃ i, Starts lens k i ∧ lens.getD i 0 = s := by
  have h1 : k / 2 ^ (16 - s) < firstCode lens s + lenCount lens s := (Nat.div_lt_iff_lt_mul (by positivity)).2 hk
  have h2 : firstCode lens s ≤ k / 2 ^ (16 - s) := by
    rw [Nat.le_div_iff_mul_le (by positivity)]
    have := codeEnd_start lens (show s - 1 ≤ 15 by omega)
    rw [Nat.sub_add_cancel (by omega)] at this
    omega
  rw [lenCount_pos lens h0] at h1
  obtain ⟨i, hi, hs', hr⟩ := exists_rank lens (s := s) (r := k / 2 ^ (16 - s) - firstCode lens s) (by omega)
  refine ⟨i, ⟨hi, by omega, by omega, ?_⟩, hs'⟩
  rw [codeOf, hs', hr]
  omega

theorem exists_starts_le {lens : List Nat} {k s : Nat} (hs : s ≤ 15) (hk : k < codeEnd lens s) :
    ∃ i, Starts lens k i ∧ lens.getD i 0 ≤ s := by
  induction s with
  | zero => rw [codeEnd_zero] at hk; omega
  | succ s ih =>
    by_cases h : k < codeEnd lens s
    · obtain ⟨i, h1, h2⟩ := ih (by omega) h
      exact ⟨i, h1, by omega⟩
    · obtain ⟨i, h1, h2⟩ := exists_starts hs (by omega) hk (by simpa using h)
      exact ⟨i, h1, by omega⟩

end FlatCV.Png
