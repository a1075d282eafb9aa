/-
C64: geometry strings.
-/
import Verif.Lemmas.Cstr

namespace FlatCV.Props

open Model Spec

/-- `LONG_MAX` of a machine with 64-bit `long`. -/
def long64 : Nat := 9223372036854775807

theorem x_head (r : List Char) : ∀ x, ('x' :: r).head? = some x → x.isDigit = false := by
  intro x hx
  cases hx
  decide

theorem nil_head : ∀ x, ([] : List Char).head? = some x → x.isDigit = false := by
  intro x hx
  cases hx

/-- The part of the parser after the size. -/
theorem geometry_start {lmax w h : Nat} (hl : 2147483647 ≤ lmax) (hw : 0 < w ∧ w ≤ 4294967295) (hh : 0 < h ∧ h ≤ 4294967295)
    {r : List Char} (hr : ∀ x, r.head? = some x → x.isDigit = false) :
    parse_geometry lmax (some (dec w ++ 'x' :: (dec h ++ r))) =
      if r = [] then some (w, h, 0, 0)
      else if (strtol lmax r).1 < -2147483648 ∨ 2147483647 < (strtol lmax r).1 then none
      else if (strtol lmax r).2 = [] then some (w, h, (strtol lmax r).1, 0)
      else if (strtol lmax (strtol lmax r).2).1 < -2147483648 ∨ 2147483647 < (strtol lmax (strtol lmax r).2).1 ∨
          (strtol lmax (strtol lmax r).2).2 ≠ [] then none
      else some (w, h, (strtol lmax r).1, (strtol lmax (strtol lmax r).2).1) := by
  unfold parse_geometry
  dsimp only
  rw [strtoul_dec (by omega) (x_head _)]
  dsimp only
  rw [if_neg (by simp; omega), List.tail_cons, strtoul_dec (by omega) hr]
  dsimp only
  rw [if_neg (by omega)]

/-- C64: `WxH` gives the size and no offset. -/
theorem geometry_size {lmax w h : Nat} (hl : 2147483647 ≤ lmax) (hw : 0 < w ∧ w ≤ 4294967295) (hh : 0 < h ∧ h ≤ 4294967295) :
    parse_geometry lmax (some (dec w ++ 'x' :: dec h)) = some (w, h, 0, 0) := by
  have := geometry_start hl hw hh nil_head
  rw [List.append_nil] at this
  rw [this, if_pos rfl]

/-- C64: `WxH+X` gives the size and the horizontal offset. -/
theorem geometry_size_x {lmax w h : Nat} {x : Int} (hl : 2147483647 ≤ lmax) (hw : 0 < w ∧ w ≤ 4294967295)
    (hh : 0 < h ∧ h ≤ 4294967295) (hx : -2147483648 ≤ x ∧ x ≤ 2147483647) :
    parse_geometry lmax (some (dec w ++ 'x' :: (dec h ++ signed x))) = some (w, h, x, 0) := by
  have e : strtol lmax (signed x) = (x, []) := by
    have := strtol_signed (lmax := lmax) (z := x) (by omega) (by omega) (rest := []) nil_head
    rwa [List.append_nil] at this
  have hs : signed x ≠ [] := by
    have := signed_ne_nil x []
    rwa [List.append_nil] at this
  have hd := signed_head x []
  rw [List.append_nil] at hd
  rw [geometry_start hl hw hh hd, e, if_neg hs]
  dsimp only
  rw [if_neg (by omega), if_pos rfl]

/-- C64: `WxH+X+Y` gives the size and both offsets. -/
theorem geometry_size_x_y {lmax w h : Nat} {x y : Int} (hl : 2147483647 ≤ lmax) (hw : 0 < w ∧ w ≤ 4294967295)
    (hh : 0 < h ∧ h ≤ 4294967295) (hx : -2147483648 ≤ x ∧ x ≤ 2147483647) (hy : -2147483648 ≤ y ∧ y ≤ 2147483647) :
    parse_geometry lmax (some (dec w ++ 'x' :: (dec h ++ (signed x ++ signed y)))) = some (w, h, x, y) := by
  have e : strtol lmax (signed x ++ signed y) = (x, signed y) := by
    refine strtol_signed (by omega) (by omega) ?_
    have := signed_head y []
    rwa [List.append_nil] at this
  have e2 : strtol lmax (signed y) = (y, []) := by
    have := strtol_signed (lmax := lmax) (z := y) (by omega) (by omega) (rest := []) nil_head
    rwa [List.append_nil] at this
  have hs : signed y ≠ [] := by
    have := signed_ne_nil y []
    rwa [List.append_nil] at this
  rw [geometry_start hl hw hh (signed_head x _), e, if_neg (signed_ne_nil x _)]
  dsimp only
  rw [if_neg (by omega), if_neg hs, e2]
  dsimp only
  rw [if_neg (by simp; omega)]

example : parse_geometry long64 (some "640x480+10-20".toList) = some (640, 480, 10, -20) := by decide +kernel

/-- C64: a size of zero is rejected, whatever follows. -/
theorem geometry_zero (lmax w : Nat) (r : List Char) :
    parse_geometry lmax (some (dec 0 ++ 'x' :: r)) = none ∧
      ((∀ x, r.head? = some x → x.isDigit = false) → parse_geometry lmax (some (dec w ++ 'x' :: (dec 0 ++ r))) = none) := by
  constructor
  · unfold parse_geometry
    dsimp only
    rw [strtoul_dec (by omega) (x_head _)]
    dsimp only
    rw [if_pos (by simp)]
  · intro hr
    unfold parse_geometry
    dsimp only
    rw [ite_eq_left_iff]
    intro _
    have e : (strtoul lmax (dec w ++ 'x' :: (dec 0 ++ r))).2 = 'x' :: (dec 0 ++ r) := by
      by_cases h : 2 * lmax + 1 < w
      · rw [strtoul_big h (x_head _)]
      · rw [strtoul_dec (by omega) (x_head _)]
    rw [e, List.tail_cons, strtoul_dec (by omega) hr]
    dsimp only
    rw [if_pos (by simp)]

/-- C64: where `long` is wider than 32 bits, a size beyond 32 bits is rejected. -/
theorem geometry_oversized {lmax : Nat} (hl : 4294967296 ≤ lmax) {n w : Nat} (hn : 4294967295 < n) {r : List Char} :
    parse_geometry lmax (some (dec n ++ 'x' :: r)) = none ∧
      ((∀ x, r.head? = some x → x.isDigit = false) → parse_geometry lmax (some (dec w ++ 'x' :: (dec n ++ r))) = none) := by
  have key : ∀ rest : List Char, (∀ x, rest.head? = some x → x.isDigit = false) → 4294967295 < (strtoul lmax (dec n ++ rest)).1 := by
    intro rest hr
    by_cases h : 2 * lmax + 1 < n
    · rw [strtoul_big h hr]
      show 4294967295 < 2 * lmax + 1
      omega
    · rw [strtoul_dec (by omega) hr]
      exact hn
  constructor
  · unfold parse_geometry
    dsimp only
    rw [if_pos (Or.inr (Or.inr (key _ (x_head _))))]
  · intro hr
    unfold parse_geometry
    dsimp only
    rw [ite_eq_left_iff]
    intro _
    have e : (strtoul lmax (dec w ++ 'x' :: (dec n ++ r))).2 = 'x' :: (dec n ++ r) := by
      by_cases h : 2 * lmax + 1 < w
      · rw [strtoul_big h (x_head _)]
      · rw [strtoul_dec (by omega) (x_head _)]
    rw [e, List.tail_cons, if_pos (Or.inr (key _ hr))]

example : parse_geometry long64 (some "4294967296x1".toList) = none := by decide +kernel

/-- C64: where `long` is wider than 32 bits, an offset that is no `int` is rejected. -/
theorem geometry_offset_range {lmax w h : Nat} {x : Int} (hl : 4294967296 ≤ lmax) (hw : 0 < w ∧ w ≤ 4294967295)
    (hh : 0 < h ∧ h ≤ 4294967295) (hx : x < -2147483648 ∨ 2147483647 < x) {r : List Char}
    (hr : ∀ x, r.head? = some x → x.isDigit = false) :
    parse_geometry lmax (some (dec w ++ 'x' :: (dec h ++ (signed x ++ r)))) = none := by
  rw [geometry_start (by omega) hw hh (signed_head x _), if_neg (signed_ne_nil x _), if_pos]
  by_cases h0 : x < -(lmax : Int) - 1 ∨ (lmax : Int) < x
  · rw [strtol_signed_big h0 hr]
    dsimp only
    split_ifs <;> omega
  · rw [strtol_signed (by omega) (by omega) hr]
    exact hx

/-- C64: whatever is accepted has the shape of a geometry: two numerals with an `x` between them and at most two more numerals.
Without minus signs the first two are the size; the others are the offsets. -/
theorem geometry_shape {lmax : Nat} {s : List Char} {w h : Nat} {x y : Int} (hl : 4294967296 ≤ lmax)
    (e : parse_geometry lmax (some s) = some (w, h, x, y)) :
    ∃ a b c negw nw negh nh, s = a ++ 'x' :: (b ++ c) ∧ Numeral a negw nw ∧ Numeral b negh nh ∧
      (negw = false → w = nw) ∧ (negh = false → h = nh) ∧ 0 < w ∧ w ≤ 4294967295 ∧ 0 < h ∧ h ≤ 4294967295 ∧
      ((c = [] ∧ x = 0 ∧ y = 0) ∨
       (∃ nx n, Numeral c nx n ∧ x = (if nx then -(n : Int) else n) ∧ y = 0) ∨
       (∃ c1 c2 nx n ny m, c = c1 ++ c2 ∧ Numeral c1 nx n ∧ Numeral c2 ny m ∧ x = (if nx then -(n : Int) else n) ∧
          y = (if ny then -(m : Int) else m))) := by
  have ul : ∀ t : List Char, (strtoul lmax t).1 ≠ 0 → (strtoul lmax t).1 ≤ 4294967295 → ∃ u neg n, t = u ++ (strtoul lmax t).2 ∧
      Numeral u neg n ∧ (neg = false → (strtoul lmax t).1 = n) := by
    intro t h0 h1
    unfold strtoul at h0 h1 ⊢
    cases hs : scanInt t with
    | none => rw [hs] at h0; exact absurd rfl h0
    | some r =>
      obtain ⟨neg, n, rest⟩ := r
      rw [hs] at h0 h1
      dsimp only at h0 h1 ⊢
      obtain ⟨u, eu, hu⟩ := scanInt_some hs
      split_ifs at h0 h1 ⊢ with g1 g2
      · exact absurd h1 (by omega)
      · exact ⟨u, neg, n, eu, hu, fun h => by rw [h] at g2; cases g2⟩
      · exact ⟨u, neg, n, eu, hu, fun _ => rfl⟩
  have sl : ∀ t : List Char, t ≠ [] → ¬ ((strtol lmax t).1 < -2147483648 ∨ 2147483647 < (strtol lmax t).1) →
      (strtol lmax t = (0, t)) ∨ ∃ u neg n, t = u ++ (strtol lmax t).2 ∧ Numeral u neg n ∧
        (strtol lmax t).1 = (if neg then -(n : Int) else n) := by
    intro t ht h1
    unfold strtol at h1 ⊢
    cases hs : scanInt t with
    | none => exact Or.inl rfl
    | some r =>
      obtain ⟨neg, n, rest⟩ := r
      rw [hs] at h1
      dsimp only at h1 ⊢
      obtain ⟨u, eu, hu⟩ := scanInt_some hs
      right
      refine ⟨u, neg, n, ?_, hu, ?_⟩
      · cases neg <;> exact eu
      · cases neg
        · simp only [Bool.false_eq_true, if_false] at h1 ⊢
          split_ifs at h1 ⊢ <;> omega
        · simp only [if_true] at h1 ⊢
          split_ifs at h1 ⊢ <;> omega
  unfold parse_geometry at e
  dsimp only at e
  split_ifs at e with h1 h2 h3 h4 h5 h6
  all_goals
    push Not at h1 h2
    obtain ⟨hx1, hw0, hw1⟩ := h1
    obtain ⟨hh0, hh1⟩ := h2
    obtain ⟨a, negw, nw, ea, na, va⟩ := ul s hw0 hw1
    obtain ⟨b, negh, nh, eb, nb, vb⟩ := ul _ hh0 hh1
    have et : (strtoul lmax s).2 = 'x' :: (strtoul lmax s).2.tail := by
      cases hq : (strtoul lmax s).2 with
      | nil => rw [hq] at hx1; cases hx1
      | cons q t => rw [hq] at hx1; cases hx1; rfl
    rw [et, eb] at ea
    cases e
    refine ⟨a, b, _, negw, nw, negh, nh, ea, na, nb, va, vb, Nat.pos_of_ne_zero hw0, hw1, Nat.pos_of_ne_zero hh0, hh1, ?_⟩
  · exact Or.inl ⟨h3, rfl, rfl⟩
  · rcases sl _ h3 h4 with z | ⟨u, neg, n, eu, hu, vu⟩
    · rw [z] at h5
      exact absurd h5 h3
    · rw [h5, List.append_nil] at eu
      exact Or.inr (Or.inl ⟨neg, n, eu ▸ hu, vu, rfl⟩)
  · push Not at h6
    have h6' : ¬ ((strtol lmax (strtol lmax (strtoul lmax (strtoul lmax s).2.tail).2).2).1 < -2147483648 ∨
      2147483647 < (strtol lmax (strtol lmax (strtoul lmax (strtoul lmax s).2.tail).2).2).1) := by omega
    rcases sl _ h5 h6' with z | ⟨u2, neg2, m, eu2, hu2, vu2⟩
    · have := h6.2.2
      rw [z] at this
      exact absurd this h5
    rcases sl _ h3 h4 with z | ⟨u, neg, n, eu, hu, vu⟩
    · have := h6.2.2
      rw [z] at this
      dsimp only at this
      rw [z] at this
      exact absurd this h3
    · rw [h6.2.2, List.append_nil] at eu2
      refine Or.inr (Or.inr ⟨u, u2, neg, n, neg2, m, ?_, hu, hu2, vu, vu2⟩)
      rw [← eu2]
      exact eu

/-- C64 is not all true: a minus sign wraps around, so a "negative" width can be accepted as 1. -/
theorem geometry_minus_wraps :
    parse_geometry long64 (some "-18446744073709551615x-18446744073709551614".toList) = some (1, 2, 0, 0) := by decide +kernel

/-- Where `long` has 32 bits, oversized dimensions and offsets are silently replaced by the largest ones. -/
theorem geometry_long32 :
    parse_geometry 2147483647 (some "4294967296x99999999999+99999999999".toList) =
      some (4294967295, 4294967295, 2147483647, 0) := by decide +kernel

end FlatCV.Props
