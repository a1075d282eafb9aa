/-
Properties C33 (hex colours) and C34 (binarisation by colour).
-/
import Verif.Lemmas.Color

namespace FlatCV.Props
open Model Spec

/-- C33: a six-digit colour, with or without a leading `#`, in any mixture of upper and lower
case, is parsed to exactly its three byte values. -/
theorem parse_hex_color_valid {s : List Char} {r g b : UInt8} (h : Spells s r g b) :
    fcv_parse_hex_color s = (r, g, b) ∧ fcv_parse_hex_color ('#' :: s) = (r, g, b) := by
  refine ⟨?_, by rw [parse_hash]; exact parseBody_spells h⟩
  rw [parse_nohash, parseBody_spells h]
  rintro t rfl
  obtain ⟨c0, _, _, _, _, _, e, h0, _⟩ := h
  have := (digit_hex h0).1
  have : c0 = '#' := by
    have := congrArg List.head? e
    simpa using this.symm
  subst this
  contradiction

/-- C33: every other string gives white. -/
theorem parse_hex_color_invalid {s : List Char}
    (h : ∀ t, (s = t ∨ s = '#' :: t) → ∀ r g b, ¬ Spells t r g b) :
    fcv_parse_hex_color s = (255, 255, 255) := by
  by_cases hh : ∃ t, s = '#' :: t
  · obtain ⟨t, rfl⟩ := hh
    rw [parse_hash]
    exact parseBody_white (h t (Or.inr rfl))
  · rw [parse_nohash fun t e => hh ⟨t, e⟩]
    exact parseBody_white (h s (Or.inl rfl))

/-- Mixed case is a spelling; the hypothesis of `parse_hex_color_valid` is satisfiable. -/
example : Spells "fF00a9".toList 255 0 169 :=
  ⟨'f', 'F', '0', '0', 'a', '9', rfl, Or.inl rfl, Or.inr rfl, Or.inl rfl, Or.inl rfl, Or.inl rfl,
    Or.inl rfl⟩

/-- Two `#` signs are not accepted: the hypothesis of `parse_hex_color_invalid` is satisfiable. -/
example : ∀ t, ("##00FF00".toList = t ∨ "##00FF00".toList = '#' :: t) →
    ∀ r g b, ¬ Spells t r g b := by
  rintro t (rfl | e) r g b ⟨c0, c1, c2, c3, c4, c5, e', _⟩
  · have := congrArg List.length e'
    revert this
    simp
  · have := congrArg List.length e
    rw [e'] at this
    revert this
    simp

variable {P : Plat} {d : List UInt8}

/-- C34: 255 exactly for pixels whose R, G, B equal the foreground colour, 0 for all others;
alpha and the background colour have no influence. -/
theorem convert_to_binary_correct {w h : Nat} (im : Img P w h 4 d)
    (fg bg : List Char) {r g b : UInt8} (hfg : fcv_parse_hex_color fg = (r, g, b)) :
    Yields (fcv_convert_to_binary P (some d) w h (some fg) (some bg))
      (mkPx (w * h) 1 fun i _ =>
        if px1 4 d i 0 = r ∧ px1 4 d i 1 = g ∧ px1 4 d i 2 = b then 255 else 0) := by
  intro hp
  obtain ⟨hw, hh, uw, uh, hd, hs⟩ := im
  have hsz : w * h * 4 ≤ P.szMax := by omega
  have hg1 : ¬ w > P.szMax / h := P.guard_of_mul_le hh (by omega)
  have e1 : P.sz (w * h) = w * h := P.sz_eq' (by omega)
  have z : ¬ ((w : Int) ≤ 0 ∨ (h : Int) ≤ 0) := by omega
  unfold fcv_convert_to_binary
  simp only [z, if_false, Int.toNat_natCast, hg1, e1, hfg]
  refine allocFill_returns hp ?_
  refine (Filled.loop (fun i k => k = i) (Filled.start' (mkPx (w * h) 1 fun i _ =>
        if px1 4 d i 0 = r ∧ px1 4 d i 1 = g ∧ px1 4 d i 2 = b then 255 else 0)
        (by simp)) ?_).mono ?_
  · intro i hi V t hV
    have hv := mkPx_getElem? (n := w * h) (ch := 1) (f := fun i _ =>
        if px1 4 d i 0 = r ∧ px1 4 d i 1 = g ∧ px1 4 d i 2 = b then (255 : UInt8) else 0)
        (i := i) (c := 0) hi (by omega)
    simp only [Nat.mul_one, Nat.add_zero] at hv
    rw [P.sz_eq' (n := i * 4) (by omega), P.sz_eq' (n := i * 4 + 1) (by omega),
      P.sz_eq' (n := i * 4 + 2) (by omega),
      rdIn_ok (i := i * 4) (getElem?_px1 (c := 0) hd hi (by omega)),
      rdIn_ok (getElem?_px1 (c := 1) hd hi (by omega)),
      rdIn_ok (getElem?_px1 (c := 2) hd hi (by omega))]
    simp only [ok_bind]
    by_cases hm : px1 4 d i 0 = r ∧ px1 4 d i 1 = g ∧ px1 4 d i 2 = b
    · rw [if_pos hm]
      rw [if_pos hm] at hv
      exact hV.wr hv
    · rw [if_neg hm, ite_self]
      rw [if_neg hm] at hv
      exact hV.wr hv
  · intro s hs
    refine hs.done fun k hk => Or.inr ⟨k, by simpa using hk, rfl⟩

example : Img .lp64 1 2 4 [255, 0, 0, 255, 0, 0, 0, 255] ∧
    fcv_parse_hex_color "FF0000".toList = (255, 0, 0) :=
  ⟨⟨by decide, by decide, by decide, by decide, by decide, by decide⟩, by decide⟩

/-- C09 for this function: a NULL argument or a non-positive size is rejected. -/
theorem convert_to_binary_rejects {data : Option (List UInt8)} {fg bg : Option (List Char)}
    {w h : Int} (hp : Heap)
    (hbad : data = none ∨ fg = none ∨ bg = none ∨ w ≤ 0 ∨ h ≤ 0) :
    Rejects (fcv_convert_to_binary P data w h fg bg) hp := by
  unfold Rejects fcv_convert_to_binary
  cases data with
  | none => rfl
  | some d =>
    cases fg with
    | none => rfl
    | some f =>
      cases bg with
      | none => rfl
      | some b =>
        have : w ≤ 0 ∨ h ≤ 0 := by simpa using hbad
        simp [this]

end FlatCV.Props
