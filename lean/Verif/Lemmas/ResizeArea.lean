/-
One output pixel of `fcv_resize` with the area filter.
-/
import Verif.Lemmas.ResizeNum
import Verif.Lemmas.Mem
import Verif.Lemmas.Image
import Mathlib.Algebra.BigOperators.Intervals
import Mathlib.Algebra.BigOperators.Field
import Mathlib.Algebra.Order.BigOperators.Group.Finset
import Mathlib.Algebra.Order.Ring.Pow

namespace FlatCV

open Model Finset

/-- Unit roundoff of `double`. -/
def uu : ℚ := 1 / 2 ^ 53

theorem uu_pos : 0 < uu := by unfold uu; positivity
theorem uu_lt : uu < 1 := by unfold uu; norm_num

theorem pow_lo {k : ℕ} : 1 - k * uu ≤ (1 - uu) ^ k := by
  have := one_add_mul_le_pow (a := -uu) (by linarith [uu_lt]) k
  rw [← sub_eq_add_neg] at this
  linarith

theorem pow_hi {k : ℕ} (hk : k ≤ 2147483648) : (1 + uu) ^ k ≤ 1 + 2 * (k * uu) := by
  have h1 := pow_lo (k := k)
  have hk' : (k : ℚ) ≤ 2147483648 := by exact_mod_cast hk
  have hk0 : (0 : ℚ) ≤ k := Nat.cast_nonneg _
  have hd : (k : ℚ) * uu ≤ 1 / 2 := by unfold uu; norm_num; linarith
  have hd0 : 0 ≤ (k : ℚ) * uu := mul_nonneg hk0 uu_pos.le
  have h2 : (1 + uu) ^ k * (1 - uu) ^ k ≤ 1 := by
    rw [← mul_pow]
    refine pow_le_one₀ ?_ ?_
    · have := uu_pos; have := uu_lt; nlinarith
    · have := uu_pos; nlinarith
  have h3 : 0 < (1 + uu) ^ k := pow_pos (by linarith [uu_pos]) _
  have h4 : (1 + uu) ^ k * (1 - k * uu) ≤ 1 := (mul_le_mul_of_nonneg_left h1 h3.le).trans h2
  generalize (k : ℚ) * uu = δ at *
  by_contra hc
  push Not at hc
  have : (1 + 2 * δ) * (1 - δ) < (1 + uu) ^ k * (1 - δ) := mul_lt_mul_of_pos_right hc (by linarith)
  nlinarith

/-- `x` is the value `X ≥ 0` after `k` roundings. -/
structure Acc (k : ℕ) (X x : ℚ) : Prop where
  nonneg : 0 ≤ X
  lo : X * (1 - uu) ^ k ≤ x
  hi : x ≤ X * (1 + uu) ^ k
  sep : x = 0 ∨ 1 / 2 ^ 200 ≤ x
  le : X ≤ 255 * k

theorem Acc.mono {k l : ℕ} (h : k ≤ l) {X x : ℚ} (a : Acc k X x) : Acc l X x := by
  have h1 : (1 - uu) ^ l ≤ (1 - uu) ^ k := pow_le_pow_of_le_one (by linarith [uu_lt]) (by linarith [uu_pos]) h
  have h2 : (1 + uu) ^ k ≤ (1 + uu) ^ l := pow_le_pow_right₀ (by linarith [uu_pos]) h
  have h3 : (k : ℚ) ≤ l := by exact_mod_cast h
  have := a.nonneg
  exact ⟨a.nonneg, (mul_le_mul_of_nonneg_left h1 a.nonneg).trans a.lo,
    a.hi.trans (mul_le_mul_of_nonneg_left h2 a.nonneg), a.sep, by have := a.le; linarith⟩

theorem Acc.val_nonneg {k : ℕ} {X x : ℚ} (a : Acc k X x) : 0 ≤ x :=
  (mul_nonneg a.nonneg (pow_nonneg (by linarith [uu_lt]) _)).trans a.lo

theorem Acc.zero : Acc 4 0 0 := ⟨le_refl _, by simp, by simp, .inl rfl, by norm_num⟩

theorem rnd_tiny : Fmt.b64.rnd (1 / 2 ^ 200) = 1 / 2 ^ 200 := rnd64_inv_pow (by norm_num)

/-- Adding a term. -/
theorem Acc.step {k : ℕ} {X x T t : ℚ} (a : Acc k X x) (b : Acc k T t) (hT : T ≤ 255) (hk : k < 2147483648) :
    f64 (x + t) = .ok (Fmt.b64.rnd (x + t)) ∧ Acc (k + 1) (X + T) (Fmt.b64.rnd (x + t)) := by
  have hx0 := a.val_nonneg
  have ht0 := b.val_nonneg
  have hs : x + t = 0 ∨ 1 / 2 ^ 200 ≤ x + t := by
    rcases a.sep with h | h
    · rcases b.sep with h' | h'
      · left; linarith
      · right; linarith
    · right; linarith
  have hrel := rnd64_rel (x := x + t) (hs.imp id fun h => le_trans
    (one_div_le_one_div_of_le (by positivity) (pow_le_pow_right₀ (by norm_num) (by norm_num))) h)
  have elo : (X + T) * (1 - uu) ^ k ≤ x + t := by have := a.lo; have := b.lo; linarith
  have ehi : x + t ≤ (X + T) * (1 + uu) ^ k := by have := a.hi; have := b.hi; linarith
  have hXT : 0 ≤ X + T := add_nonneg a.nonneg b.nonneg
  have hk' : (k : ℚ) ≤ 2147483648 := by exact_mod_cast hk.le
  refine ⟨?_, hXT, ?_, ?_, ?_, ?_⟩
  · apply f64_ok
    rw [abs_of_nonneg (by linarith)]
    have h2 : (1 + uu) ^ k ≤ 2 := by
      refine (pow_hi hk.le).trans ?_
      unfold uu
      norm_num
      linarith
    have := a.le
    have : (X + T) * (1 + uu) ^ k ≤ (255 * 2147483648 + 255) * 2 :=
      mul_le_mul (by linarith) h2 (pow_nonneg (by linarith [uu_pos]) _) (by norm_num)
    exact ehi.trans (this.trans (by norm_num))
  · rw [pow_succ, ← mul_assoc]
    exact (mul_le_mul_of_nonneg_right elo (by linarith [uu_lt])).trans hrel.1
  · rw [pow_succ, ← mul_assoc]
    exact hrel.2.trans (mul_le_mul_of_nonneg_right ehi (by linarith [uu_pos]))
  · rcases hs with h | h
    · left; rw [h, rnd_zero]
    · right; exact le_rnd _ h rnd_tiny
  · have := a.le
    push_cast
    linarith

/-- A byte times a weight. -/
theorem Acc.scale {W w : ℚ} (a : Acc 3 W w) (hW : W ≤ 1) (hs : 1 / 2 ^ 200 ≤ w) (v : UInt8) :
    f64 (v.toNat * w) = .ok (Fmt.b64.rnd (v.toNat * w)) ∧ Acc 4 (W * v.toNat) (Fmt.b64.rnd (v.toNat * w)) := by
  have hv : (v.toNat : ℚ) ≤ 255 := by
    have : v.toNat ≤ 255 := by have := v.toNat_lt; omega
    exact_mod_cast this
  have hv0 : (0 : ℚ) ≤ v.toNat := Nat.cast_nonneg _
  have hw0 := a.val_nonneg
  have hsep : (v.toNat : ℚ) * w = 0 ∨ 1 / 2 ^ 200 ≤ (v.toNat : ℚ) * w := by
    rcases Nat.eq_zero_or_pos v.toNat with h | h
    · left; rw [h]; simp
    · right
      have : (1 : ℚ) ≤ v.toNat := by exact_mod_cast h
      nlinarith
  have hrel := rnd64_rel (x := (v.toNat : ℚ) * w) (hsep.imp id fun h => le_trans
    (one_div_le_one_div_of_le (by positivity) (pow_le_pow_right₀ (by norm_num) (by norm_num))) h)
  have elo : W * v.toNat * (1 - uu) ^ 3 ≤ v.toNat * w := by
    have := mul_le_mul_of_nonneg_left a.lo hv0; linarith
  have ehi : v.toNat * w ≤ W * v.toNat * (1 + uu) ^ 3 := by
    have := mul_le_mul_of_nonneg_left a.hi hv0; linarith
  refine ⟨?_, mul_nonneg a.nonneg hv0, ?_, ?_, ?_, ?_⟩
  · apply f64_ok
    rw [abs_of_nonneg (mul_nonneg hv0 hw0)]
    have h2 : (1 + uu) ^ 3 ≤ 2 := (pow_hi (by norm_num)).trans (by unfold uu; norm_num)
    have h3 : w ≤ 2 := a.hi.trans (by
      have := mul_le_mul hW h2 (pow_nonneg (by linarith [uu_pos]) _) (by norm_num)
      linarith)
    have := mul_le_mul hv h3 hw0 (by norm_num)
    exact this.trans (by norm_num)
  · rw [pow_succ, ← mul_assoc]
    exact (mul_le_mul_of_nonneg_right elo (by linarith [uu_lt])).trans hrel.1
  · rw [pow_succ, ← mul_assoc]
    exact hrel.2.trans (mul_le_mul_of_nonneg_right ehi (by linarith [uu_pos]))
  · rcases hsep with h | h
    · left; rw [h, rnd_zero]
    · right; exact le_rnd _ h rnd_tiny
  · have := mul_le_mul hW hv hv0 (by norm_num)
    push_cast
    linarith

/-- The weight of a pixel. -/
theorem weight_acc {X Y : ℚ} (gx : Grid 90 X) (gy : Grid 90 Y) (hx : 0 < X) (hy : 0 < Y) (hx1 : X ≤ 1) (hy1 : Y ≤ 1) :
    ∃ w, f64 X = .ok (Fmt.b64.rnd X) ∧ f64 Y = .ok (Fmt.b64.rnd Y) ∧
      f64 (Fmt.b64.rnd X * Fmt.b64.rnd Y) = .ok w ∧ Acc 3 (X * Y) w ∧ 1 / 2 ^ 200 ≤ w := by
  have px := gx.pos hx
  have py := gy.pos hy
  have r90 : Fmt.b64.rnd (1 / 2 ^ 90) = 1 / 2 ^ 90 := rnd64_inv_pow (by norm_num)
  have r1 : Fmt.b64.rnd 1 = 1 := by have := rnd64_int (m := 1) (by norm_num); simpa using this
  have ax := rnd64_rel' (x := X) (le_trans (by norm_num) px)
  have ay := rnd64_rel' (x := Y) (le_trans (by norm_num) py)
  have lx : 1 / 2 ^ 90 ≤ Fmt.b64.rnd X := le_rnd _ px r90
  have ly : 1 / 2 ^ 90 ≤ Fmt.b64.rnd Y := le_rnd _ py r90
  have ux : Fmt.b64.rnd X ≤ 1 := rnd_le _ hx1 r1
  have uy : Fmt.b64.rnd Y ≤ 1 := rnd_le _ hy1 r1
  have e1 : f64 X = .ok (Fmt.b64.rnd X) := f64_ok (by rw [abs_of_pos hx]; linarith)
  have e2 : f64 Y = .ok (Fmt.b64.rnd Y) := f64_ok (by rw [abs_of_pos hy]; linarith)
  have hu : (1 : ℚ) / 2 ^ 53 = uu := rfl
  rw [hu] at ax ay
  generalize Fmt.b64.rnd X = p at *
  generalize Fmt.b64.rnd Y = q at *
  have p0 : 0 < p := lt_of_lt_of_le (by positivity) lx
  have q0 : 0 < q := lt_of_lt_of_le (by positivity) ly
  have lpq : 1 / 2 ^ 180 ≤ p * q := by
    have := mul_le_mul lx ly (by positivity) p0.le
    refine le_trans (le_of_eq ?_) this
    norm_num
  have upq : p * q ≤ 1 := by nlinarith
  have hrel := rnd64_rel (x := p * q) (.inr (le_trans
    (one_div_le_one_div_of_le (by positivity) (pow_le_pow_right₀ (by norm_num) (by norm_num))) lpq))
  rw [hu] at hrel
  have hm1 : 0 < 1 - uu := by linarith [uu_lt]
  have hm2 : 0 < 1 + uu := by linarith [uu_pos]
  have lw : 1 / 2 ^ 180 ≤ Fmt.b64.rnd (p * q) := le_rnd _ lpq (rnd64_inv_pow (by norm_num))
  have lw' : 1 / 2 ^ 200 ≤ Fmt.b64.rnd (p * q) := le_trans
    (one_div_le_one_div_of_le (by positivity) (pow_le_pow_right₀ (by norm_num) (by norm_num))) lw
  refine ⟨Fmt.b64.rnd (p * q), e1, e2, f64_ok (by rw [abs_of_pos (by positivity)]; linarith), ⟨?_, ?_, ?_, .inr lw', ?_⟩, lw'⟩
  · positivity
  · have h := mul_le_mul ax.1 ay.1 (mul_nonneg hy.le hm1.le) p0.le
    have := mul_le_mul_of_nonneg_right h hm1.le
    calc X * Y * (1 - uu) ^ 3 = X * (1 - uu) * (Y * (1 - uu)) * (1 - uu) := by ring
      _ ≤ _ := this.trans hrel.1
  · have h := mul_le_mul ax.2 ay.2 q0.le (mul_nonneg hx.le hm2.le)
    have := mul_le_mul_of_nonneg_right h hm2.le
    calc Fmt.b64.rnd (p * q) ≤ X * (1 + uu) * (Y * (1 + uu)) * (1 + uu) := hrel.2.trans this
      _ = _ := by ring
  · have := mul_le_mul hx1 hy1 hy.le (by norm_num)
    push_cast
    linarith

/-- The quotient as a byte. -/
theorem resizeByte_ok {k : ℕ} (hk : k ≤ 1073741828) {R W r w : ℚ} (hR : Acc k R r) (hW : Acc k W w) (h0 : 0 < W)
    (hle : R ≤ 255 * W) : ∃ b, resizeByte r w = .ok b ∧ RoundsTo (R / W) b := by
  have hk' : (k : ℚ) ≤ 1073741828 := by exact_mod_cast hk
  have hk0 : (0 : ℚ) ≤ k := Nat.cast_nonneg _
  have l1 := pow_lo (k := k)
  have l2 := pow_hi (k := k) (by omega)
  have hd : (k : ℚ) * uu ≤ 1 / 2 ^ 22 := by unfold uu; norm_num; linarith
  have hd0 : 0 ≤ (k : ℚ) * uu := mul_nonneg hk0 uu_pos.le
  generalize (k : ℚ) * uu = δ at *
  have r1 : R * (1 - δ) ≤ r := (mul_le_mul_of_nonneg_left l1 hR.nonneg).trans hR.lo
  have r2 : r ≤ R * (1 + 2 * δ) := hR.hi.trans (mul_le_mul_of_nonneg_left l2 hR.nonneg)
  have w1 : W * (1 - δ) ≤ w := (mul_le_mul_of_nonneg_left l1 h0.le).trans hW.lo
  have w2 : w ≤ W * (1 + 2 * δ) := hW.hi.trans (mul_le_mul_of_nonneg_left l2 h0.le)
  have hd1 : δ ≤ 1 / 4 := hd.trans (by norm_num)
  have wp : 0 < w := lt_of_lt_of_le (mul_pos h0 (by linarith)) w1
  set m := R / W with hm
  have hmW : R = m * W := by rw [hm]; field_simp
  have m0 : 0 ≤ m := div_nonneg hR.nonneg h0.le
  have m1 : m ≤ 255 := by rw [hm, div_le_iff₀ h0]; linarith
  -- the exact quotient of the rounded sums
  have q2 : r / w ≤ m + 1 / 2 ^ 12 := by
    rw [div_le_iff₀ wp]
    have a1 : r ≤ m * W * (1 + 2 * δ) := by rw [← hmW]; exact r2
    have a2 : m * W * (1 + 2 * δ) ≤ (m + 1 / 2 ^ 12) * (W * (1 - δ)) := by
      have : m * (1 + 2 * δ) ≤ (m + 1 / 2 ^ 12) * (1 - δ) := by norm_num at hd ⊢; nlinarith
      calc m * W * (1 + 2 * δ) = m * (1 + 2 * δ) * W := by ring
        _ ≤ (m + 1 / 2 ^ 12) * (1 - δ) * W := mul_le_mul_of_nonneg_right this h0.le
        _ = _ := by ring
    have a3 : (m + 1 / 2 ^ 12) * (W * (1 - δ)) ≤ (m + 1 / 2 ^ 12) * w :=
      mul_le_mul_of_nonneg_left w1 (by positivity)
    linarith
  have q1 : m - 1 / 2 ^ 12 ≤ r / w := by
    rw [le_div_iff₀ wp]
    by_cases hneg : m - 1 / 2 ^ 12 ≤ 0
    · have : (m - 1 / 2 ^ 12) * w ≤ 0 := mul_nonpos_of_nonpos_of_nonneg hneg wp.le
      linarith [hR.val_nonneg]
    · push Not at hneg
      have a1 : m * W * (1 - δ) ≤ r := by rw [← hmW]; exact r1
      have a2 : (m - 1 / 2 ^ 12) * (W * (1 + 2 * δ)) ≤ m * W * (1 - δ) := by
        have : (m - 1 / 2 ^ 12) * (1 + 2 * δ) ≤ m * (1 - δ) := by norm_num at hd ⊢; nlinarith
        calc (m - 1 / 2 ^ 12) * (W * (1 + 2 * δ)) = (m - 1 / 2 ^ 12) * (1 + 2 * δ) * W := by ring
          _ ≤ m * (1 - δ) * W := mul_le_mul_of_nonneg_right this h0.le
          _ = _ := by ring
      have a3 : (m - 1 / 2 ^ 12) * w ≤ (m - 1 / 2 ^ 12) * (W * (1 + 2 * δ)) := mul_le_mul_of_nonneg_left w2 hneg.le
      linarith
  have q0 : 0 ≤ r / w := div_nonneg hR.val_nonneg wp.le
  have qabs : |r / w| ≤ 256 := by rw [abs_of_nonneg q0]; norm_num at q2; linarith
  have e1 : f64div r w = .ok (Fmt.b64.rnd (r / w)) := f64div_ok wp.ne' (qabs.trans (by norm_num))
  have err1 := abs_le.1 (rnd64_err_le qabs (by norm_num))
  have z0 : 0 ≤ Fmt.b64.rnd (r / w) := rnd_nonneg _ q0
  generalize r / w = q at *
  generalize Fmt.b64.rnd q = z at *
  have zabs : |z + 1 / 2| ≤ 257 := by rw [abs_of_nonneg (by linarith)]; norm_num at q2 err1; linarith [err1.2]
  have e2 : f64 (z + 1 / 2) = .ok (Fmt.b64.rnd (z + 1 / 2)) := f64_ok (zabs.trans (by norm_num))
  have err2 := abs_le.1 (rnd64_err_le zabs (by norm_num))
  have y0 : 0 ≤ Fmt.b64.rnd (z + 1 / 2) := rnd_nonneg _ (by linarith)
  generalize Fmt.b64.rnd (z + 1 / 2) = y at *
  have hy1 : y ≤ m + 1 / 2 + 1 / 2048 := by norm_num at q2 err1 err2 ⊢; linarith [err1.2, err2.2]
  have hy2 : m + 1 / 2 - 1 / 2048 ≤ y := by norm_num at q1 err1 err2 ⊢; linarith [err1.1, err2.1]
  have e3 : castU8 y = .ok (u8OfInt ⌊y⌋) := castU8_ok y0 (by linarith)
  refine ⟨u8OfInt ⌊y⌋, ?_, ?_⟩
  · unfold resizeByte
    rw [e1]
    simp only [ok_bind]
    rw [e2]
    exact e3
  · have f0 : 0 ≤ ⌊y⌋ := Int.floor_nonneg.2 y0
    have f1 : ⌊y⌋ < 256 := Int.floor_lt.2 (by push_cast; linarith)
    have hb : ((u8OfInt ⌊y⌋).toNat : ℚ) = (⌊y⌋ : ℚ) := by
      have : ((u8OfInt ⌊y⌋).toNat : ℤ) = ⌊y⌋ := by
        unfold u8OfInt
        simp
        omega
      exact_mod_cast congrArg (Int.cast (R := ℚ)) this
    have fl1 := Int.floor_le y
    have fl2 := Int.lt_floor_add_one y
    unfold RoundsTo
    rw [hb, abs_le]
    constructor <;> linarith

/-! ### The loops -/

/-- The sums for red, green, blue and the weights (`G 3`). -/
def SumsOk (k : ℕ) (G : ℕ → ℚ) (a : ResizeAcc) : Prop :=
  Acc k (G 0) a.r ∧ Acc k (G 1) a.g ∧ Acc k (G 2) a.b ∧ Acc k (G 3) a.w

/-- Channel values; index 3 counts the pixels. -/
def chanVal (w : ℕ) (d : List UInt8) (c x y : ℕ) : ℚ := if c = 3 then 1 else ((px w 4 d x y c).toNat : ℚ)

theorem overlap_nonneg (a b : ℚ) (s : ℕ) : 0 ≤ overlap a b s := le_max_left _ _

theorem overlap_le_one (a b : ℚ) (s : ℕ) : overlap a b s ≤ 1 := by
  unfold overlap
  refine max_le (by norm_num) ?_
  have h1 := min_le_left ((s : ℚ) + 1) b
  have h2 := le_max_left (s : ℚ) a
  linarith

theorem grid_max {k : ℕ} {x y : ℚ} (hx : Grid k x) (hy : Grid k y) : Grid k (max x y) := by
  rcases max_choice x y with h | h <;> rw [h] <;> assumption

theorem grid_min {k : ℕ} {x y : ℚ} (hx : Grid k x) (hy : Grid k y) : Grid k (min x y) := by
  rcases min_choice x y with h | h <;> rw [h] <;> assumption

theorem grid_nat (k n : ℕ) : Grid k (n : ℚ) := by have := Grid.int k (n : ℤ); exact_mod_cast this

theorem resizeTap_ok {w h : ℕ} {d : List UInt8} (hd : d.length = w * h * 4) (hsz : w * h * 4 < 4294967296)
    {a b c e : ℚ} (ga : Grid 90 a) (gb : Grid 90 b) (gc : Grid 90 c) (ge : Grid 90 e) {x y : ℕ} (hx : x < w)
    (hy : y < h) {k : ℕ} (hk4 : 4 ≤ k) (hk : k < 2147483648) {G : ℕ → ℚ} {s : ResizeAcc} (hs : SumsOk k G s) :
    Ok (resizeTap w d a b c e y x s)
      (SumsOk (k + 1) (fun i => G i + overlap a b x * overlap c e y * chanVal w d i x y)) := by
  have hw : w ≤ w * h := Nat.le_mul_of_pos_right w (by omega)
  have hh : h ≤ w * h := Nat.le_mul_of_pos_left h (by omega)
  unfold resizeTap
  rw [i32_ok ⟨by omega, by omega⟩, i32_ok ⟨by omega, by omega⟩]
  simp only [ok_bind]
  have ml : (if (((x : ℕ) : ℤ) : ℚ) > a then (((x : ℕ) : ℤ) : ℚ) else a) = max (x : ℚ) a := by
    push_cast
    split_ifs with hc
    · rw [max_eq_left hc.le]
    · rw [max_eq_right (not_lt.1 hc)]
  have mr : (if ((((x : ℕ) : ℤ) + 1 : ℤ) : ℚ) < b then ((((x : ℕ) : ℤ) + 1 : ℤ) : ℚ) else b) = min ((x : ℚ) + 1) b := by
    push_cast
    split_ifs with hc
    · rw [min_eq_left hc.le]
    · rw [min_eq_right (not_lt.1 hc)]
  have mt : (if (((y : ℕ) : ℤ) : ℚ) > c then (((y : ℕ) : ℤ) : ℚ) else c) = max (y : ℚ) c := by
    push_cast
    split_ifs with hc
    · rw [max_eq_left hc.le]
    · rw [max_eq_right (not_lt.1 hc)]
  have mb : (if ((((y : ℕ) : ℤ) + 1 : ℤ) : ℚ) < e then ((((y : ℕ) : ℤ) + 1 : ℤ) : ℚ) else e) = min ((y : ℚ) + 1) e := by
    push_cast
    split_ifs with hc
    · rw [min_eq_left hc.le]
    · rw [min_eq_right (not_lt.1 hc)]
  rw [ml, mr, mt, mb]
  obtain ⟨s0, s1, s2, s3⟩ := hs
  by_cases hc : min ((x : ℚ) + 1) b > max (x : ℚ) a ∧ min ((y : ℚ) + 1) e > max (y : ℚ) c
  · rw [if_pos hc]
    have ex : overlap a b x = min ((x : ℚ) + 1) b - max (x : ℚ) a := max_eq_right (by linarith [hc.1])
    have ey : overlap c e y = min ((y : ℚ) + 1) e - max (y : ℚ) c := max_eq_right (by linarith [hc.2])
    have g1 : ∀ n : ℕ, Grid 90 ((n : ℚ) + 1) := fun n => by have := grid_nat 90 (n + 1); push_cast at this; exact this
    have gx : Grid 90 (overlap a b x) := by
      rw [ex]; exact (grid_min (g1 x) gb).sub (grid_max (grid_nat _ _) ga)
    have gy : Grid 90 (overlap c e y) := by
      rw [ey]; exact (grid_min (g1 y) ge).sub (grid_max (grid_nat _ _) gc)
    obtain ⟨wt, e1, e2, e3, aw, hwt⟩ := weight_acc gx gy (by rw [ex]; linarith [hc.1]) (by rw [ey]; linarith [hc.2])
      (overlap_le_one _ _ _) (overlap_le_one _ _ _)
    rw [← ex, ← ey, e1, e2]
    simp only [ok_bind]
    rw [e3]
    simp only [ok_bind]
    have o1 : overlap a b x * overlap c e y ≤ 1 := by
      have := mul_le_mul (overlap_le_one a b x) (overlap_le_one c e y) (overlap_nonneg c e y) (by norm_num)
      linarith
    obtain ⟨ew, rw'⟩ := s3.step (aw.mono (by omega)) (by linarith) hk
    rw [ew]
    simp only [ok_bind]
    have hlt := idx3_lt (ch := 4) hx hy (show 3 < 4 by omega)
    have hid := idx_lt hx hy
    have u1 : u32OfInt ((y : ℕ) : ℤ) = y := by rw [u32OfInt_eq (by omega) (by omega)]; simp
    have u2 : u32OfInt ((x : ℕ) : ℤ) = x := by rw [u32OfInt_eq (by omega) (by omega)]; simp
    rw [u1, u2, u32_eq (n := y * w + x) (by omega), u32_eq (n := (y * w + x) * 4) (by omega),
      u32_eq (n := (y * w + x) * 4 + 1) (by omega), u32_eq (n := (y * w + x) * 4 + 2) (by omega)]
    have rdc : ∀ c, c < 4 → rdIn d ((y * w + x) * 4 + c) = .ok (px w 4 d x y c) :=
      fun c hc => rdIn_ok (getElem?_px hd hx hy hc)
    rw [show (y * w + x) * 4 = (y * w + x) * 4 + 0 from rfl, rdc 0 (by omega), rdc 1 (by omega), rdc 2 (by omega)]
    simp only [ok_bind]
    have t255 : ∀ v : UInt8, overlap a b x * overlap c e y * (v.toNat : ℚ) ≤ 255 := by
      intro v
      have hv : (v.toNat : ℚ) ≤ 255 := by
        have : v.toNat ≤ 255 := by have := v.toNat_lt; omega
        exact_mod_cast this
      have := mul_le_mul o1 hv (Nat.cast_nonneg _) (by norm_num)
      linarith
    obtain ⟨m0, a0⟩ := aw.scale o1 hwt (px w 4 d x y 0)
    obtain ⟨m1, a1⟩ := aw.scale o1 hwt (px w 4 d x y 1)
    obtain ⟨m2, a2⟩ := aw.scale o1 hwt (px w 4 d x y 2)
    obtain ⟨n0, b0⟩ := s0.step (a0.mono hk4) (t255 _) hk
    obtain ⟨n1, b1⟩ := s1.step (a1.mono hk4) (t255 _) hk
    obtain ⟨n2, b2⟩ := s2.step (a2.mono hk4) (t255 _) hk
    rw [m0, m1, m2]
    simp only [ok_bind]
    rw [n0, n1, n2]
    simp only [ok_bind]
    refine Ok.pure' ⟨?_, ?_, ?_, ?_⟩
    · simpa [chanVal] using b0
    · simpa [chanVal] using b1
    · simpa [chanVal] using b2
    · simpa [chanVal] using rw'
  · rw [if_neg hc]
    have hz : overlap a b x * overlap c e y = 0 := by
      by_cases h1 : min ((x : ℚ) + 1) b > max (x : ℚ) a
      · have h2 : ¬ min ((y : ℚ) + 1) e > max (y : ℚ) c := fun h => hc ⟨h1, h⟩
        have : overlap c e y = 0 := max_eq_left (by linarith)
        rw [this, mul_zero]
      · have : overlap a b x = 0 := max_eq_left (by linarith)
        rw [this, zero_mul]
    refine Ok.pure' ⟨?_, ?_, ?_, ?_⟩
    · simpa [hz] using s0.mono (Nat.le_succ k)
    · simpa [hz] using s1.mono (Nat.le_succ k)
    · simpa [hz] using s2.mono (Nat.le_succ k)
    · simpa [hz] using s3.mono (Nat.le_succ k)

/-- The part of a sum that the loop visits is all of it. -/
theorem sum_window {n : ℕ} {a b : ℚ} {i j : ℤ} (hi : i = max 0 ⌊a⌋) (hj : j = min ⌈b⌉ n) (f : ℕ → ℚ)
    (hf : ∀ s, overlap a b s = 0 → f s = 0) :
    ∑ k ∈ range (j - i).toNat, f (i.toNat + k) = ∑ s ∈ range n, f s := by
  have hz1 : ∀ s : ℕ, s < i.toNat → f s = 0 := by
    intro s hs
    apply hf
    have h1 : (s : ℤ) + 1 ≤ ⌊a⌋ := by omega
    have h2 : ((s : ℚ)) + 1 ≤ a := by
      have : (((s : ℤ) + 1 : ℤ) : ℚ) ≤ a := Int.le_floor.1 h1
      push_cast at this
      exact this
    unfold overlap
    refine max_eq_left ?_
    have := min_le_left ((s : ℚ) + 1) b
    have := le_max_right (s : ℚ) a
    linarith
  have hz2 : ∀ s : ℕ, s < n → j ≤ s → f s = 0 := by
    intro s hs hjs
    apply hf
    have h1 : ⌈b⌉ ≤ (s : ℤ) := by omega
    have h2 : b ≤ (s : ℚ) := by
      have := Int.ceil_le.1 h1
      exact_mod_cast this
    unfold overlap
    refine max_eq_left ?_
    have := min_le_right ((s : ℚ) + 1) b
    have := le_max_left (s : ℚ) a
    linarith
  have hi0 : 0 ≤ i := by omega
  by_cases hij : i ≤ j
  · have hjn : j.toNat ≤ n := by omega
    have e1 : (j - i).toNat = j.toNat - i.toNat := by omega
    rw [e1, ← sum_Ico_eq_sum_range, range_eq_Ico,
      ← sum_Ico_consecutive f (Nat.zero_le i.toNat) (show i.toNat ≤ n by omega),
      ← sum_Ico_consecutive f (show i.toNat ≤ j.toNat by omega) hjn]
    have z1 : ∑ s ∈ Ico 0 i.toNat, f s = 0 := sum_eq_zero fun s hs => hz1 s (mem_Ico.1 hs).2
    have z2 : ∑ s ∈ Ico j.toNat n, f s = 0 := sum_eq_zero fun s hs => by
      have := mem_Ico.1 hs
      exact hz2 s this.2 (by omega)
    rw [z1, z2, zero_add, add_zero]
  · have e1 : (j - i).toNat = 0 := by omega
    rw [e1, range_zero, sum_empty]
    symm
    refine sum_eq_zero fun s hs => ?_
    rw [mem_range] at hs
    by_cases h : s < i.toNat
    · exact hz1 s h
    · exact hz2 s hs (by omega)

/-- The exact area sum as a product, for the weights. -/
theorem areaSum_one (w h : ℕ) (a b c e : ℚ) :
    areaSum w h a b c e (fun _ _ => 1) = (∑ x ∈ range w, overlap a b x) * ∑ y ∈ range h, overlap c e y := by
  unfold areaSum
  rw [mul_comm, sum_mul]
  refine sum_congr rfl fun y _ => ?_
  rw [mul_sum]
  refine sum_congr rfl fun x _ => ?_
  ring

theorem overlap_sum_pos {n : ℕ} {a b : ℚ} (h1 : a < b) (h2 : 0 < b) (h3 : a < n) (hn : 0 < n) :
    0 < ∑ s ∈ range n, overlap a b s := by
  refine sum_pos' (fun s _ => overlap_nonneg _ _ _) ?_
  by_cases ha : a < 0
  · refine ⟨0, mem_range.2 hn, ?_⟩
    unfold overlap
    refine lt_max_of_lt_right ?_
    have e1 : max ((0 : ℕ) : ℚ) a = 0 := by rw [Nat.cast_zero]; exact max_eq_left ha.le
    have e2 : 0 < min (((0 : ℕ) : ℚ) + 1) b := lt_min (by norm_num) h2
    linarith
  · push Not at ha
    have f0 : 0 ≤ ⌊a⌋ := Int.floor_nonneg.2 ha
    have fl := Int.floor_le a
    have fl2 := Int.lt_floor_add_one a
    have ef : ((⌊a⌋.toNat : ℕ) : ℚ) = (⌊a⌋ : ℚ) := by
      have : ((⌊a⌋.toNat : ℕ) : ℤ) = ⌊a⌋ := Int.toNat_of_nonneg f0
      exact_mod_cast congrArg (Int.cast (R := ℚ)) this
    refine ⟨⌊a⌋.toNat, mem_range.2 ?_, ?_⟩
    · have : (⌊a⌋ : ℚ) < n := lt_of_le_of_lt fl h3
      have : ⌊a⌋ < (n : ℤ) := by exact_mod_cast this
      omega
    · unfold overlap
      rw [ef]
      refine lt_max_of_lt_right ?_
      have e1 : max (⌊a⌋ : ℚ) a = a := max_eq_right fl
      have e2 : a < min ((⌊a⌋ : ℚ) + 1) b := lt_min fl2 h1
      linarith

/-- The loop over the window. -/
theorem areaLoop_ok {w h : ℕ} {d : List UInt8} (hd : d.length = w * h * 4) (hsz : w * h * 4 < 4294967296)
    {a b c e : ℚ} (ga : Grid 90 a) (gb : Grid 90 b) (gc : Grid 90 c) (ge : Grid 90 e) {i j k l : ℤ}
    (hi : i = max 0 ⌊a⌋) (hj : j = min ⌈b⌉ w) (hk : k = max 0 ⌊c⌋) (hl : l = min ⌈e⌉ h) :
    Ok (forN (l - k).toNat ⟨0, 0, 0, 0⟩ fun jj acc => forN (j - i).toNat acc fun ii acc =>
        resizeTap w d a b c e (k + jj) (i + ii) acc)
      (fun acc => ∃ n, n ≤ 1073741828 ∧ SumsOk n (fun q => areaSum w h a b c e (chanVal w d q)) acc) := by
  have hi0 : 0 ≤ i := by omega
  have hk0 : 0 ≤ k := by omega
  have cw : (j - i).toNat ≤ w := by omega
  have chh : (l - k).toNat ≤ h := by omega
  have hprod : (l - k).toNat * (j - i).toNat ≤ h * w := Nat.mul_le_mul chh cw
  have hwh : h * w = w * h := Nat.mul_comm h w
  have key := forN_ok (n := (l - k).toNat) (s := (⟨0, 0, 0, 0⟩ : ResizeAcc))
    (body := fun jj acc => forN (j - i).toNat acc fun ii acc => resizeTap w d a b c e (k + jj) (i + ii) acc)
    (I := fun jj acc => SumsOk (4 + jj * (j - i).toNat) (fun q => ∑ y ∈ range jj, ∑ x ∈ range (j - i).toNat,
      overlap a b (i.toNat + x) * overlap c e (k.toNat + y) * chanVal w d q (i.toNat + x) (k.toNat + y)) acc)
    (by simp only [range_zero, sum_empty, zero_mul, add_zero]; exact ⟨Acc.zero, Acc.zero, Acc.zero, Acc.zero⟩)
    (by
      intro jj hjj acc hacc
      have hmul : (jj + 1) * (j - i).toNat ≤ (l - k).toNat * (j - i).toNat := Nat.mul_le_mul_right _ hjj
      have hexp : (jj + 1) * (j - i).toNat = jj * (j - i).toNat + (j - i).toNat := by ring
      have inner := forN_ok (n := (j - i).toNat) (s := acc)
        (body := fun ii acc => resizeTap w d a b c e (k + jj) (i + ii) acc)
        (I := fun ii acc => SumsOk (4 + jj * (j - i).toNat + ii) (fun q => (∑ y ∈ range jj, ∑ x ∈ range (j - i).toNat,
          overlap a b (i.toNat + x) * overlap c e (k.toNat + y) * chanVal w d q (i.toNat + x) (k.toNat + y)) +
          ∑ x ∈ range ii, overlap a b (i.toNat + x) * overlap c e (k.toNat + jj) *
            chanVal w d q (i.toNat + x) (k.toNat + jj)) acc)
        (by simpa using hacc)
        (by
          intro ii hii acc' hacc'
          have := resizeTap_ok hd hsz ga gb gc ge (x := i.toNat + ii) (y := k.toNat + jj) (by omega) (by omega)
            (k := 4 + jj * (j - i).toNat + ii) (by omega) (by omega) hacc'
          have e1 : ((k.toNat + jj : ℕ) : ℤ) = k + jj := by omega
          have e2 : ((i.toNat + ii : ℕ) : ℤ) = i + ii := by omega
          rw [e1, e2] at this
          refine this.mono fun r hr => ?_
          simp only [sum_range_succ _ ii, ← add_assoc]
          exact hr)
      refine inner.mono fun r hr => ?_
      simp only [sum_range_succ _ jj]
      rw [hexp, ← add_assoc]
      exact hr)
  refine key.mono fun acc hacc => ⟨4 + (l - k).toNat * (j - i).toNat, by omega, ?_⟩
  have e : ∀ q, (∑ y ∈ range (l - k).toNat, ∑ x ∈ range (j - i).toNat,
      overlap a b (i.toNat + x) * overlap c e (k.toNat + y) * chanVal w d q (i.toNat + x) (k.toNat + y)) =
      areaSum w h a b c e (chanVal w d q) := by
    intro q
    unfold areaSum
    rw [← sum_window hk hl (fun y => ∑ x ∈ range w, overlap a b x * overlap c e y * chanVal w d q x y)
      (fun s hs => sum_eq_zero fun x _ => by rw [hs]; ring)]
    refine sum_congr rfl fun y _ => ?_
    exact sum_window hi hj (fun x => overlap a b x * overlap c e (k.toNat + y) * chanVal w d q x (k.toNat + y))
      (fun s hs => by rw [hs]; ring)
  simp only [e] at hacc
  exact hacc

theorem areaSum_le {w h : ℕ} {a b c e : ℚ} {d : List UInt8} (q : ℕ) :
    areaSum w h a b c e (chanVal w d q) ≤ 255 * areaSum w h a b c e (chanVal w d 3) := by
  unfold areaSum
  rw [mul_sum]
  refine sum_le_sum fun y _ => ?_
  rw [mul_sum]
  refine sum_le_sum fun x _ => ?_
  have h1 : chanVal w d q x y ≤ 255 * chanVal w d 3 x y := by
    unfold chanVal
    rw [if_pos rfl]
    split_ifs
    · norm_num
    · have : (px w 4 d x y q).toNat ≤ 255 := by have := (px w 4 d x y q).toNat_lt; omega
      rw [mul_one]
      exact_mod_cast this
  have h2 : 0 ≤ overlap a b x * overlap c e y := mul_nonneg (overlap_nonneg _ _ _) (overlap_nonneg _ _ _)
  nlinarith

theorem areaSum_three {w h : ℕ} {a b c e : ℚ} {d : List UInt8} :
    areaSum w h a b c e (chanVal w d 3) = areaSum w h a b c e (fun _ _ => 1) := by
  unfold areaSum chanVal
  simp

theorem areaSum_chan {w h : ℕ} {a b c e : ℚ} {d : List UInt8} {q : ℕ} (hq : q < 3) :
    areaSum w h a b c e (chanVal w d q) = areaSum w h a b c e (fun x y => ((px w 4 d x y q).toNat : ℚ)) := by
  unfold areaSum chanVal
  simp only [show q ≠ 3 by omega, if_false]

/-- An output pixel with the area filter. -/
theorem areaPixel_ok {w h : ℕ} {d : List UInt8} (hd : d.length = w * h * 4) (hsz : w * h * 4 < 4294967296)
    {rx ry : ℚ} {ox oy : ℕ} {a b c e : ℚ} {i j k l : ℤ} (Wx : Win w rx ox a b i j) (Wy : Win h ry oy c e k l) :
    ∃ r g bl : UInt8, areaPixel w h rx ry d ox oy = .ok (r, g, bl) ∧
      (0 < areaSum w h a b c e (fun _ _ => 1) →
        ∀ q < 3, RoundsTo (areaMean w h a b c e (fun x y => ((px w 4 d x y q).toNat : ℚ)))
          (if q = 0 then r else if q = 1 then g else bl)) ∧
      (areaSum w h a b c e (fun _ _ => 1) = 0 → r = 0 ∧ g = 0 ∧ bl = 0) := by
  obtain ⟨acc, eacc, n, hn, s0, s1, s2, s3⟩ := areaLoop_ok hd hsz Wx.grid_a Wx.grid_b Wy.grid_a Wy.grid_b
    Wx.i_eq Wx.j_eq Wy.i_eq Wy.j_eq
  dsimp only at s0 s1 s2 s3
  rw [areaSum_three] at s3
  unfold areaPixel
  rw [Wx.run, Wy.run]
  simp only [ok_bind]
  rw [eacc]
  simp only [ok_bind]
  by_cases hp : 0 < areaSum w h a b c e (fun _ _ => 1)
  · have hpos : acc.w > 0 := lt_of_lt_of_le (mul_pos hp (pow_pos (by linarith [uu_lt]) _)) s3.lo
    rw [if_pos hpos]
    have hle := fun q => areaSum_le (w := w) (h := h) (a := a) (b := b) (c := c) (e := e) (d := d) q
    simp only [areaSum_three] at hle
    obtain ⟨b0, e0, h0⟩ := resizeByte_ok hn s0 s3 hp (hle 0)
    obtain ⟨b1, e1, h1⟩ := resizeByte_ok hn s1 s3 hp (hle 1)
    obtain ⟨b2, e2, h2⟩ := resizeByte_ok hn s2 s3 hp (hle 2)
    refine ⟨b0, b1, b2, ?_, fun _ q hq => ?_, fun hz => by linarith⟩
    · rw [e0, e1, e2]; rfl
    · unfold areaMean
      rw [← areaSum_chan hq]
      rcases (show q = 0 ∨ q = 1 ∨ q = 2 by omega) with rfl | rfl | rfl
      · simpa using h0
      · simpa using h1
      · simpa using h2
  · have hz : areaSum w h a b c e (fun _ _ => 1) = 0 := le_antisymm (not_lt.1 hp) s3.nonneg
    have hw0 : acc.w = 0 := by
      have h1 := s3.lo
      have h2 := s3.hi
      rw [hz] at h1 h2
      simp only [zero_mul] at h1 h2
      linarith
    rw [if_neg (by rw [hw0]; norm_num)]
    exact ⟨0, 0, 0, rfl, fun h => absurd h hp, fun _ => ⟨rfl, rfl, rfl⟩⟩

end FlatCV
