/-
C110: does `resize 640x480` give an image of 640 × 480 pixels?
-/
import Verif.Props.CliWhole

namespace FlatCV.Props
open FlatCV FlatCV.Model FlatCV.Spec

variable {P : Plat} {M : MathLib} {L : Lib} {i : Sized}

/-- C110 as stated: a piece `resize WxH` makes an image of `W × H` pixels of every image. -/
def ResizeToExact : Prop := ∀ (P : Plat) (M : MathLib) (L : Lib) (i : Sized) (a b : List Char) (W H : Nat) (op : PipelineOp),
  ExpOk M.ex → Picture P i.w i.h i.d → i.w * i.h < 268435456 → Word a → Word b → '%' ∉ a → 'x' ∉ a → (a ++ 'x' :: b).length ≤ 63 →
  L.atof a = .fin W → L.atof b = .fin H → 0 < W → 0 < H → W * H < 1073741824 →
  Means L.atof L.fmt ("resize".toList ++ ' ' :: (a ++ 'x' :: b)) op →
  ∃ d, Makes (apply_operation P M L i.w i.h (stored op) i.d) ⟨W, H, d⟩

theorem makes_unique {m : HM OpResult} {o o' : Sized} (h : Makes m o) (h' : Makes m o') : o = o' := by
  obtain ⟨r, g, e, k, er, -⟩ := h Heap.fresh fun _ => rfl
  obtain ⟨r', g', e', k', er', -⟩ := h' Heap.fresh fun _ => rfl
  rw [e] at e'
  cases e'
  rw [er] at er'
  obtain ⟨w, v, d⟩ := o
  obtain ⟨w', v', d'⟩ := o'
  simp only [Prod.mk.injEq, Option.some.injEq, Buf.mk.injEq, Nat.cast_inj] at er'
  obtain ⟨⟨-, e1⟩, e2, e3⟩ := er'
  have : d = d' := by
    have := congrArg (fun l => l.filterMap id) e1
    simpa [List.filterMap_map] using this
  rw [e2, e3, this]

/-- The size computed for the wanted size `W` is `W` or, because the quotient is rounded, one less. -/
theorem outDim_target {w W : Nat} (hw : 0 < w) (hW : 0 < W) (hw' : w < 4294967296) (hW' : W < 4294967296) :
    outDim w (Fmt.b64.rnd ((W : ℚ) / w)) = W ∨ outDim w (Fmt.b64.rnd ((W : ℚ) / w)) = W - 1 := by
  have w0 : (0 : ℚ) < w := by exact_mod_cast hw
  have w1 : (w : ℚ) < 4294967296 := by exact_mod_cast hw'
  have W0 : (1 : ℚ) ≤ W := by exact_mod_cast hW
  have W1 : (W : ℚ) < 4294967296 := by exact_mod_cast hW'
  have rW := rnd64_int (m := (W : ℤ)) (by rw [abs_of_nonneg (by omega)]; omega)
  rw [show ((W : ℤ) : ℚ) = (W : ℚ) by norm_num] at rW
  have half : ∀ m : ℤ, |m| ≤ 9007199254740992 → Fmt.b64.rnd ((m : ℚ) / 2) = (m : ℚ) / 2 := by
    intro m hm
    have := rnd_exact Fmt.b64 (m := m) (e := -1) (by decide) (by simpa [Fmt.b64] using hm)
    rw [zpow_neg_one] at this
    rw [div_eq_mul_inv]
    exact this
  have hi := half (2 * W + 1) (by rw [abs_of_nonneg (by omega)]; omega)
  have lo := half (2 * W - 1) (by rw [abs_of_nonneg (by omega)]; omega)
  push_cast at hi lo
  have err := rnd64_err ((W : ℚ) / w)
  generalize Fmt.b64.rnd ((W : ℚ) / w) = q at err ⊢
  have e1 : |(w : ℚ) * q - W| ≤ 1 / 2 := by
    have : (w : ℚ) * q - W = w * (q - W / w) := by field_simp
    rw [this, abs_mul, abs_of_pos w0]
    have a1 : |(W : ℚ) / w| = W / w := abs_of_nonneg (by positivity)
    rw [a1] at err
    have a2 : (w : ℚ) * |q - W / w| ≤ w * ((W : ℚ) / w / 2 ^ 53 + 1 / 2 ^ 1075) := mul_le_mul_of_nonneg_left err w0.le
    have a3 : (w : ℚ) * ((W : ℚ) / w / 2 ^ 53 + 1 / 2 ^ 1075) = W / 2 ^ 53 + w * (1 / 2 ^ 1075) := by
      field_simp
    have a4 : (1 : ℚ) / 2 ^ 1075 ≤ 1 / 2 ^ 53 := one_div_le_one_div_of_le (by positivity) (pow_le_pow_right₀ (by norm_num) (by norm_num))
    have a5 : (w : ℚ) * (1 / 2 ^ 1075) ≤ w * (1 / 2 ^ 53) := mul_le_mul_of_nonneg_left a4 w0.le
    rw [a3] at a2
    have : (W : ℚ) / 2 ^ 53 + w * (1 / 2 ^ 53) ≤ 1 / 2 := by
      rw [mul_one_div, ← add_div, div_le_div_iff₀ (by positivity) (by norm_num)]
      norm_num
      linarith
    linarith
  obtain ⟨l, u⟩ := abs_le.1 e1
  have r1 : Fmt.b64.rnd (w * q) ≤ (2 * W + 1) / 2 := rnd_le _ (by linarith) hi
  have r2 : (2 * W - 1) / 2 ≤ Fmt.b64.rnd (w * q) := le_rnd _ (by linarith) lo
  unfold outDim
  generalize Fmt.b64.rnd (w * q) = r at r1 r2
  have f1 : ⌊r⌋ < (W : ℤ) + 1 := Int.floor_lt.2 (by push_cast; linarith)
  have f2 : (W : ℤ) - 1 ≤ ⌊r⌋ := Int.le_floor.2 (by push_cast; linarith)
  omega

/-- It is `W` if the quotient is a double. -/
theorem outDim_exact {w W : Nat} (hw : 0 < w) (hW' : W < 4294967296) (h : Fmt.b64.Rep ((W : ℚ) / w)) :
    outDim w (Fmt.b64.rnd ((W : ℚ) / w)) = W := by
  have hw0 : (w : ℚ) ≠ 0 := by exact_mod_cast hw.ne'
  unfold outDim
  rw [h.rnd, mul_div_cancel₀ _ hw0]
  have := rnd64_int (m := (W : ℤ)) (by rw [abs_of_nonneg (by omega)]; omega)
  rw [show ((W : ℤ) : ℚ) = (W : ℚ) by norm_num] at this
  rw [this]
  simp

theorem rep_quot (n N : Nat) (hn : 0 < n) (hN : N < 4294967296) : Fmt.b64.Rep (Fmt.b64.rnd ((N : ℚ) / n)) := by
  have q0 : (1 : ℚ) ≤ n := by exact_mod_cast hn
  have q1 : (N : ℚ) ≤ 4294967296 := by exact_mod_cast hN.le
  refine fl_rep Fmt.b64 (x := (N : ℚ) / n) (f64_ok ?_)
  rw [abs_of_nonneg (by positivity)]
  calc (N : ℚ) / n ≤ N := div_le_self (by positivity) q0
    _ ≤ 10 ^ 60 := by linarith

/-- C110, the part that holds: the result has the wanted width and height or one pixel less, and exactly the wanted ones if the
quotients of the sizes are doubles.  Missing from the full claim: the other quotients; images stretched to twice the size or more
in one direction and shrunk in the other (C27). -/
theorem resize_to_partial (hex : ExpOk M.ex) (p : Picture P i.w i.h i.d) (hs : i.w * i.h < 268435456) {a b : List Char} {W H : Nat}
    (ha : Word a) (hb : Word b) (h1 : '%' ∉ a) (h2 : 'x' ∉ a) (h3 : (a ++ 'x' :: b).length ≤ 63) (va : L.atof a = .fin W)
    (vb : L.atof b = .fin H) (hW : 1 < W) (hH : 1 < H) (hsz : W * H < 1073741824)
    (hk : (i.w ≤ W ∧ i.h ≤ H) ∨ (W < 2 * i.w ∧ H < 2 * i.h)) :
    ∃ op, Means L.atof L.fmt ("resize".toList ++ ' ' :: (a ++ 'x' :: b)) op ∧ ∃ o,
      (o.w = W ∨ o.w = W - 1) ∧ (o.h = H ∨ o.h = H - 1) ∧ (Fmt.b64.Rep ((W : ℚ) / i.w) → o.w = W) ∧
      (Fmt.b64.Rep ((H : ℚ) / i.h) → o.h = H) ∧ Picture P o.w o.h o.d ∧ Makes (apply_operation P M L i.w i.h (stored op) i.d) o := by
  have w0 := p.img.w_pos
  have h0 := p.img.h_pos
  have w1 : i.w < 4294967296 := p.img.w_u32
  have h1' : i.h < 4294967296 := p.img.h_u32
  have b1 : W ≤ W * H := Nat.le_mul_of_pos_right _ (by omega)
  have b2 : H ≤ W * H := Nat.le_mul_of_pos_left _ (by omega)
  have d1 := outDim_target (w := i.w) (W := W) w0 (by omega) w1 (by omega)
  have d2 := outDim_target (w := i.h) (W := H) h0 (by omega) h1' (by omega)
  have qw : (0 : ℚ) < i.w := by exact_mod_cast w0
  have qh : (0 : ℚ) < i.h := by exact_mod_cast h0
  have pos : ∀ (n N : Nat), 0 < n → 0 < N → N < 4294967296 → n < 4294967296 → 0 < Fmt.b64.rnd ((N : ℚ) / n) := by
    intro n N hn hN hN' hn'
    have q0 : (0 : ℚ) < n := by exact_mod_cast hn
    have q1 : (1 : ℚ) ≤ N := by exact_mod_cast hN
    have q2 : (n : ℚ) ≤ 4294967296 := by exact_mod_cast hn'.le
    refine lt_of_lt_of_le (b := (2 : ℚ) ^ (-32 : ℤ)) (by positivity) (le_rnd _ ?_ (rnd_zpow _ (by decide)))
    rw [le_div_iff₀ q0]
    norm_num
    linarith
  have one : ∀ {q : ℚ}, 1 ≤ q → 1 ≤ Fmt.b64.rnd q := fun h => le_rnd _ h rnd_one
  have two : ∀ (n N : Nat), 0 < n → N < 2 * n → n < 4294967296 → Fmt.b64.rnd ((N : ℚ) / n) < 2 := by
    intro n N hn hN hn'
    have q0 : (0 : ℚ) < n := by exact_mod_cast hn
    have q2 : (n : ℚ) ≤ 4294967296 := by exact_mod_cast hn'.le
    have q3 : (N : ℚ) + 1 ≤ 2 * n := by exact_mod_cast hN
    refine lt_of_le_of_lt (b := ((8589934591 : ℤ) : ℚ) * 2 ^ (-32 : ℤ)) (rnd_le _ ?_ (rnd_exact _ (by decide) (by decide))) (by norm_num)
    rw [div_le_iff₀ q0]
    norm_num
    linarith
  have F : Factors i (Fmt.b64.rnd ((W : ℚ) / i.w)) (Fmt.b64.rnd ((H : ℚ) / i.h)) := by
    refine ⟨rep_quot _ _ w0 (by omega), rep_quot _ _ h0 (by omega), pos _ _ w0 (by omega) (by omega) w1, pos _ _ h0 (by omega) (by omega) h1', by omega, by omega, ?_, ?_⟩
    · exact lt_of_le_of_lt (Nat.mul_le_mul (show _ ≤ W by omega) (show _ ≤ H by omega)) hsz
    · rcases hk with ⟨k1, k2⟩ | ⟨k1, k2⟩
      · left
        exact ⟨one (by rw [le_div_iff₀ qw]; simpa using k1), one (by rw [le_div_iff₀ qh]; simpa using k2)⟩
      · right
        exact ⟨two _ _ w0 k1 w1, two _ _ h0 k2 h1'⟩
  obtain ⟨op, hm, -, o, ho, po, mk⟩ := asks_fulfilled (P := P) (M := M) hex p hs (.resizeTo ha hb h1 h2 h3 va vb F)
  obtain ⟨e1, e2, -⟩ := ho
  refine ⟨op, hm, o, by rw [e1]; exact d1, by rw [e2]; exact d2, fun hr => ?_, fun hr => ?_, po, mk⟩
  · rw [e1]
    exact outDim_exact w0 (by omega) hr
  · rw [e2]
    exact outDim_exact h0 (by omega) hr

/-- A library that reads `29` and `1`. -/
def lib29 : Lib := ⟨fun s => if s = "29".toList then .fin 29 else .fin 1, fun _ => [], 9223372036854775807⟩

/-- C110 is false: `resize 29x1` makes an image 28 pixels wide of an image 25 pixels wide. -/
theorem not_resizeToExact : ¬ ResizeToExact := by
  intro h
  obtain ⟨ex, hex⟩ := expOk_exists
  have p : Picture Plat.lp64 25 1 (List.replicate 100 0) := picture_of (by decide) (by decide) (by decide) (by decide)
  have a : Asks lib29.atof ("resize".toList ++ ' ' :: ("29".toList ++ 'x' :: "1".toList)) ⟨25, 1, List.replicate 100 0⟩ _ :=
    .resizeTo (p := 29) (q := 1) ⟨by decide, by decide⟩ ⟨by decide, by decide⟩ (by decide) (by decide) (by decide) rfl rfl
      ⟨rep_quot 25 29 (by decide) (by decide), by simpa using rep_quot 1 1 (by decide) (by decide), by decide +kernel, by decide +kernel,
        by decide +kernel, by decide +kernel, by decide +kernel,
        Or.inl ⟨by decide +kernel, by decide +kernel⟩⟩
  obtain ⟨op, hm, -, o, ⟨ew, -⟩, -, mk⟩ := asks_fulfilled (P := Plat.lp64) (M := { noMath with ex := ex }) hex p (by decide) a
  obtain ⟨d, mk'⟩ := h Plat.lp64 { noMath with ex := ex } lib29 ⟨25, 1, List.replicate 100 0⟩ "29".toList "1".toList 29 1 op hex p (by decide)
    ⟨by decide, by decide⟩ ⟨by decide, by decide⟩ (by decide) (by decide) (by decide) rfl (by decide) (by decide) (by decide) (by decide) hm
  rw [makes_unique mk mk'] at ew
  dsimp only at ew
  revert ew
  decide +kernel

/-- Other sizes: the width 113 asked of an image 800 pixels wide, 245 asked of 1920, and 1 asked of 49 (where the call then
fails). -/
example : outDim 800 (Fmt.b64.rnd (113 / 800)) = 112 ∧ outDim 1920 (Fmt.b64.rnd (245 / 1920)) = 244 ∧
    outDim 49 (Fmt.b64.rnd (1 / 49)) = 0 := by decide +kernel

/-- `resize 320x240` is exact for an image of 640 × 480 pixels. -/
example : Fmt.b64.Rep (((320 : Nat) : ℚ) / (640 : Nat)) ∧ Fmt.b64.Rep (((240 : Nat) : ℚ) / (480 : Nat)) := by
  have h : Fmt.b64.Rep (1 / 2 : ℚ) := by
    have := rep_quot 2 1 (by decide) (by decide)
    rwa [show Fmt.b64.rnd (((1 : Nat) : ℚ) / (2 : Nat)) = 1 / 2 by decide +kernel] at this
  constructor
  · rw [show ((320 : Nat) : ℚ) / (640 : Nat) = 1 / 2 by norm_num]
    exact h
  · rw [show ((240 : Nat) : ℚ) / (480 : Nat) = 1 / 2 by norm_num]
    exact h

end FlatCV.Props
