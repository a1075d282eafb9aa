/-
Document extraction: when warping succeeds, and the computed size.
-/
import Verif.Spec.Extract
import Verif.Lemmas.Warp
import Verif.Lemmas.HPart
import Verif.Core.Sqrt

namespace FlatCV

open Model Spec

/-! ### Warping succeeds only if the coordinates fit -/

theorem forN_each {σ : Type} {body : Nat → σ → CM σ} : ∀ {n : Nat} {s r : σ}, forN n s body = .ok r → ∀ i, i < n →
    ∃ a b, body i a = .ok b := by
  intro n
  induction n with
  | zero => intro s r _ i hi; omega
  | succ n ih =>
    intro s r e i hi
    rw [forN_succ] at e
    cases hf : forN n s body with
    | error x => rw [hf] at e; cases e
    | ok t =>
      rw [hf, ok_bind] at e
      rcases Nat.lt_or_ge i n with h | h
      · exact ih hf i h
      · obtain rfl : i = n := by omega
        exact ⟨t, r, e⟩

theorem castI32_of_ok {z x : ℤ} (e : castI32 ((z : ℤ) : ℚ) = .ok x) : x = z ∧ -2147483648 ≤ z ∧ z ≤ 2147483647 := by
  unfold castI32 castInt at e
  rw [trunc_int] at e
  split_ifs at e with h
  cases e
  exact ⟨rfl, h⟩

theorem i32_of_ok {z x : ℤ} (e : i32 z = .ok x) : x = z ∧ -2147483648 ≤ z ∧ z ≤ 2147483647 := by
  unfold i32 at e
  split_ifs at e with h
  cases e
  exact ⟨rfl, h⟩

theorem warpPixel_fits {iw ih ow : Int} {d : List UInt8} {m : Mat Dbl} {x y : ℕ} {s s' : Cells UInt8}
    (e : warpPixel iw ih d ow m y x s = .ok s') :
    NoPosition m x y ∨ ∃ sx sy, Position m x y sx sy ∧ Fits32 sx ∧ Fits32 sy := by
  unfold warpPixel at e
  simp only [linear64_eq] at e
  split_ifs at e with ht
  · left
    exact tiny_test.1 ht
  right
  have hn : ¬ NoPosition m x y := fun h => ht (tiny_test.2 h)
  cases e1 : Dbl.div Fmt.b64 (linear64 m.m00 m.m01 m.m02 x y) (linear64 m.m20 m.m21 m.m22 x y) with
  | error f => rw [e1] at e; cases e
  | ok a =>
    rw [e1, ok_bind] at e
    cases a with
    | nan => cases e
    | inf b => cases e
    | fin sx =>
      change (Except.ok sx >>= _) = _ at e
      rw [ok_bind] at e
      cases e2 : Dbl.div Fmt.b64 (linear64 m.m10 m.m11 m.m12 x y) (linear64 m.m20 m.m21 m.m22 x y) with
      | error f => rw [e2] at e; cases e
      | ok a =>
        rw [e2, ok_bind] at e
        cases a with
        | nan => cases e
        | inf b => cases e
        | fin sy =>
          change (Except.ok sy >>= _) = _ at e
          rw [ok_bind] at e
          refine ⟨sx, sy, ⟨hn, e1, e2⟩, ?_⟩
          cases e3 : castI32 ((⌊sx⌋ : ℤ) : ℚ) with
          | error f => rw [e3] at e; cases e
          | ok x0 =>
            rw [e3, ok_bind] at e
            cases e4 : castI32 ((⌊sy⌋ : ℤ) : ℚ) with
            | error f => rw [e4] at e; cases e
            | ok y0 =>
              rw [e4, ok_bind] at e
              obtain ⟨rfl, a1, a2⟩ := castI32_of_ok e3
              obtain ⟨rfl, b1, b2⟩ := castI32_of_ok e4
              cases e5 : i32 (⌊sx⌋ + 1) with
              | error f => rw [e5] at e; cases e
              | ok x1 =>
                rw [e5, ok_bind] at e
                cases e6 : i32 (⌊sy⌋ + 1) with
                | error f => rw [e6] at e; cases e
                | ok y1 =>
                  obtain ⟨_, a3, a4⟩ := i32_of_ok e5
                  obtain ⟨_, b3, b4⟩ := i32_of_ok e6
                  unfold Fits32
                  omega

theorem coordsFit_of_ok {iw ih : Int} {ow oh : ℕ} {d : List UInt8} {m : Mat Dbl} {s r : Cells UInt8}
    (e : (forN oh s fun out_y s => forN ow s fun out_x s => warpPixel iw ih d ow m out_y out_x s) = .ok r) : CoordsFit m ow oh := by
  intro x hx y hy
  obtain ⟨a, b, e1⟩ := forN_each e y hy
  obtain ⟨a', b', e2⟩ := forN_each e1 x hx
  exact warpPixel_fits e2

/-! ### Square roots -/

theorem mid_sq {s T m t : ℚ} (hT : 1 ≤ T) (ht0 : 0 ≤ t) (hmt : m = t * T - 1 / 2) (g1 : m * m ≤ s * (T * T))
    (g2 : s * (T * T) ≤ (m + 1) * (m + 1)) : |t ^ 2 - s| ≤ (t + 1) / T := by
  have hp : 0 < T := by linarith
  rw [hmt] at g1 g2
  have k1 : (t ^ 2 - s) * T ≤ t + 1 := by
    by_contra hcon
    push Not at hcon
    have := mul_lt_mul_of_pos_right hcon hp
    nlinarith
  have k2 : (s - t ^ 2) * T ≤ t + 1 := by
    by_contra hcon
    push Not at hcon
    have := mul_lt_mul_of_pos_right hcon hp
    nlinarith
  rw [le_div_iff₀ hp]
  rcases abs_cases (t ^ 2 - s) with ⟨e, _⟩ | ⟨e, _⟩ <;> rw [e] <;> linarith

theorem mid_sq' {s T U : ℚ} {m : ℕ} (hU : 1 ≤ U) (hUT : U ≤ T) (g1 : (m : ℚ) * m ≤ s * (T * T))
    (g2 : s * (T * T) ≤ ((m : ℚ) + 1) * (m + 1)) {r : ℚ}
    (hr : r = if (m : ℚ) * m = s * (T * T) then (m : ℚ) / T else (2 * m + 1) / (2 * T)) : |r ^ 2 - s| ≤ (r + 1) / U := by
  have hp : 0 < T := by linarith
  have hp' : 0 < U := by linarith
  by_cases hc : (m : ℚ) * m = s * (T * T)
  · rw [if_pos hc] at hr
    have : r ^ 2 - s = 0 := by
      rw [hr]
      field_simp
      linarith
    rw [this, abs_zero, hr]
    positivity
  · rw [if_neg hc] at hr
    have r0 : 0 ≤ r := by rw [hr]; positivity
    refine (mid_sq (by linarith) r0 (by rw [hr]; field_simp; ring) g1 g2).trans ?_
    exact div_le_div_of_nonneg_left (by linarith) hp' hUT

theorem sqrtMid_sq {s : ℚ} (hs : 0 ≤ s) : |sqrtMid s ^ 2 - s| ≤ (sqrtMid s + 1) / 2 ^ 100 := by
  have h100 : (2 : ℚ) ^ 100 ≤ 2 ^ 1100 := pow_le_pow_right₀ (by norm_num) (by norm_num)
  have h1 : (1 : ℚ) ≤ 2 ^ 100 := one_le_pow₀ (by norm_num)
  have hnn : 0 ≤ s * 2 ^ 2200 := mul_nonneg hs (by positivity)
  have hfn : (0 : ℤ) ≤ ⌊s * 2 ^ 2200⌋ := Int.floor_nonneg.2 hnn
  have h2 : ((⌊s * 2 ^ 2200⌋.toNat : ℕ) : ℤ) = ⌊s * 2 ^ 2200⌋ := by omega
  have h3 : ((⌊s * 2 ^ 2200⌋.toNat : ℕ) : ℚ) = ((⌊s * 2 ^ 2200⌋ : ℤ) : ℚ) := by exact_mod_cast h2
  have hlo : ((⌊s * 2 ^ 2200⌋.toNat : ℕ) : ℚ) ≤ s * 2 ^ 2200 := by rw [h3]; exact Int.floor_le _
  have hhi : s * 2 ^ 2200 < ((⌊s * 2 ^ 2200⌋.toNat : ℕ) : ℚ) + 1 := by rw [h3]; exact Int.lt_floor_add_one _
  have hm1 := Nat.sqrt_le ⌊s * 2 ^ 2200⌋.toNat
  have hm2 := Nat.lt_succ_sqrt ⌊s * 2 ^ 2200⌋.toNat
  have e : (2 : ℚ) ^ 1101 = 2 * 2 ^ 1100 := by rw [← pow_succ']
  have es : sqrtMid s = if ((Nat.sqrt ⌊s * 2 ^ 2200⌋.toNat : ℕ) : ℚ) * (Nat.sqrt ⌊s * 2 ^ 2200⌋.toNat : ℕ) = s * 2 ^ 2200 then
      ((Nat.sqrt ⌊s * 2 ^ 2200⌋.toNat : ℕ) : ℚ) / 2 ^ 1100 else (2 * ((Nat.sqrt ⌊s * 2 ^ 2200⌋.toNat : ℕ) : ℚ) + 1) / (2 * 2 ^ 1100) := by
    rw [← e]
    rfl
  generalize Nat.sqrt ⌊s * 2 ^ 2200⌋.toNat = m at *
  generalize ⌊s * 2 ^ 2200⌋.toNat = n at *
  have g1 : (m : ℚ) * m ≤ s * 2 ^ 2200 := by
    have : ((m * m : ℕ) : ℚ) ≤ n := by exact_mod_cast hm1
    push_cast at this
    linarith
  have g2 : s * 2 ^ 2200 ≤ ((m : ℚ) + 1) * (m + 1) := by
    have : n + 1 ≤ (m + 1) * (m + 1) := hm2
    have : ((n + 1 : ℕ) : ℚ) ≤ ((m + 1) * (m + 1) : ℕ) := by exact_mod_cast this
    push_cast at this
    linarith
  rw [pow_2200] at g1 g2 es
  exact mid_sq' h1 h100 g1 g2 es

/-! ### Accuracy -/

/-- `y` is `x` up to rounding, with `k` counting the roundings. -/
def Near (k : ℕ) (x y : ℚ) : Prop := |y - x| ≤ (x + 1) * k / 2 ^ 50

theorem Near.trans {k l : ℕ} {x y z : ℚ} (hx : 0 ≤ x) (hk : k ≤ 1000) (hl : l ≤ 1000) (h1 : Near k x y) (h2 : Near l y z) :
    Near (k + l + 1) x z := by
  unfold Near at *
  have hk' : (k : ℚ) ≤ 1000 := by exact_mod_cast hk
  have hl' : (l : ℚ) ≤ 1000 := by exact_mod_cast hl
  have k0 : (0 : ℚ) ≤ k := by positivity
  have l0 : (0 : ℚ) ≤ l := by positivity
  have a := abs_le.1 h1
  have b := abs_le.1 h2
  push_cast
  have hy : y + 1 ≤ (x + 1) * (1 + k / 2 ^ 50) := by
    have : (x + 1) * (1 + (k : ℚ) / 2 ^ 50) = x + 1 + (x + 1) * k / 2 ^ 50 := by ring
    linarith [a.2]
  have hz : (y + 1) * l / 2 ^ 50 ≤ (x + 1) * (l + 1) / 2 ^ 50 := by
    apply div_le_div_of_nonneg_right _ (by positivity)
    calc (y + 1) * (l : ℚ) ≤ (x + 1) * (1 + k / 2 ^ 50) * l := mul_le_mul_of_nonneg_right hy l0
      _ = (x + 1) * (l + k * l / 2 ^ 50) := by ring
      _ ≤ (x + 1) * (l + 1) := by
        apply mul_le_mul_of_nonneg_left _ (by linarith)
        have : (k : ℚ) * l / 2 ^ 50 ≤ 1 := by
          rw [div_le_one (by positivity)]
          nlinarith
        linarith
  have e : (x + 1) * ((k : ℚ) + l + 1) / 2 ^ 50 = (x + 1) * k / 2 ^ 50 + (x + 1) * (l + 1) / 2 ^ 50 := by ring
  rw [e, abs_le]
  constructor <;> linarith [a.1, a.2, b.1, b.2]

theorem Near.add {k : ℕ} {x y x' y' : ℚ} (hx : 0 ≤ x) (hx' : 0 ≤ x') (h1 : Near k x y) (h2 : Near k x' y') :
    Near (2 * k) (x + x') (y + y') := by
  unfold Near at *
  have k0 : (0 : ℚ) ≤ k := by positivity
  have a := abs_le.1 h1
  have b := abs_le.1 h2
  push_cast
  have e : (x + x' + 1) * (2 * (k : ℚ)) / 2 ^ 50 = (x + 1) * k / 2 ^ 50 + (x' + 1) * k / 2 ^ 50 + (x + x') * k / 2 ^ 50 := by ring
  have h0 : 0 ≤ (x + x') * (k : ℚ) / 2 ^ 50 := by positivity
  rw [e, abs_le]
  constructor <;> linarith [a.1, a.2, b.1, b.2]

theorem Near.mono {k l : ℕ} {x y : ℚ} (hx : 0 ≤ x) (h : Near k x y) (hkl : k ≤ l) : Near l x y := by
  unfold Near at *
  refine h.trans (div_le_div_of_nonneg_right ?_ (by positivity))
  exact mul_le_mul_of_nonneg_left (by exact_mod_cast hkl) (by linarith)

theorem Near.max {k : ℕ} {x y x' y' : ℚ} (h1 : Near k x y) (h2 : Near k x' y') : Near k (max x x') (max y y') := by
  unfold Near at *
  have k0 : (0 : ℚ) ≤ k := by positivity
  have a := abs_le.1 h1
  have b := abs_le.1 h2
  have m1 : (x + 1) * (k : ℚ) / 2 ^ 50 ≤ (Max.max x x' + 1) * k / 2 ^ 50 :=
    div_le_div_of_nonneg_right (mul_le_mul_of_nonneg_right (by linarith [le_max_left x x']) k0) (by positivity)
  have m2 : (x' + 1) * (k : ℚ) / 2 ^ 50 ≤ (Max.max x x' + 1) * k / 2 ^ 50 :=
    div_le_div_of_nonneg_right (mul_le_mul_of_nonneg_right (by linarith [le_max_right x x']) k0) (by positivity)
  rw [abs_le]
  constructor
  · rcases le_total x x' with h | h
    · rw [max_eq_right h] at *
      linarith [b.1, le_max_right y y']
    · rw [max_eq_left h] at *
      linarith [a.1, le_max_left y y']
  · rcases le_total y y' with h | h
    · rw [max_eq_right h]
      linarith [b.2, le_max_right x x']
    · rw [max_eq_left h]
      linarith [a.2, le_max_left x x']

theorem tiny1075 : (1 : ℚ) / 2 ^ 1075 ≤ 1 / 2 ^ 100 :=
  div_le_div_of_nonneg_left (by norm_num) (by positivity) (pow_le_pow_right₀ (by norm_num) (by norm_num))

theorem near_rnd {x : ℚ} (hx : 0 ≤ x) : Near 1 x (Fmt.b64.rnd x) := by
  unfold Near
  have h := rnd64_err x
  have t := tiny1075
  rw [abs_of_nonneg hx] at h
  refine h.trans ?_
  have : x / 2 ^ 53 ≤ x / 2 ^ 50 := div_le_div_of_nonneg_left hx (by positivity) (by norm_num)
  have e : (x + 1) * ((1 : ℕ) : ℚ) / 2 ^ 50 = x / 2 ^ 50 + 1 / 2 ^ 50 := by push_cast; ring
  rw [e]
  have : (1 : ℚ) / 2 ^ 100 ≤ 1 / 2 ^ 50 := by norm_num
  linarith

theorem near_sq {a u : ℚ} (ha : |a| ≤ 2 ^ 33) (hu : u = Fmt.b64.rnd a) : Near 1 (a ^ 2) (u ^ 2) := by
  unfold Near
  have h := rnd64_err a
  have t := tiny1075
  rw [← hu] at h
  have h0 := abs_nonneg a
  set e := |a| / 2 ^ 53 + 1 / 2 ^ 100 with he
  have h1 : |u - a| ≤ e := by linarith
  have h2 : |u + a| ≤ 2 * |a| + e := by
    have : u + a = (u - a) + 2 * a := by ring
    rw [this]
    refine (abs_add_le _ _).trans ?_
    rw [abs_mul, abs_of_pos (by norm_num : (0 : ℚ) < 2)]
    linarith
  have h3 : |u ^ 2 - a ^ 2| ≤ e * (2 * |a| + e) := by
    have : u ^ 2 - a ^ 2 = (u - a) * (u + a) := by ring
    rw [this, abs_mul]
    exact mul_le_mul h1 h2 (abs_nonneg _) (le_trans (abs_nonneg _) h1)
  refine h3.trans ?_
  have e2 : a ^ 2 = |a| ^ 2 := (sq_abs a).symm
  rw [e2, he]
  generalize |a| = b at *
  push_cast
  have hb2 : 0 ≤ b ^ 2 := by positivity
  have hb3 : b ≤ 2 ^ 33 := ha
  have ex : (b / 2 ^ 53 + 1 / 2 ^ 100) * (2 * b + (b / 2 ^ 53 + 1 / 2 ^ 100)) =
      b ^ 2 * (2 / 2 ^ 53 + 1 / 2 ^ 106) + b * (2 / 2 ^ 100 + 2 / 2 ^ 153) + 1 / 2 ^ 200 := by ring
  rw [ex]
  have k1 : b ^ 2 * (2 / 2 ^ 53 + 1 / 2 ^ 106) ≤ b ^ 2 * (1 / 2 ^ 50) := mul_le_mul_of_nonneg_left (by norm_num) hb2
  have k2 : b * (2 / 2 ^ 100 + 2 / 2 ^ 153) ≤ 2 ^ 33 * (2 / 2 ^ 100 + 2 / 2 ^ 153) := mul_le_mul_of_nonneg_right hb3 (by norm_num)
  have k3 : (2 : ℚ) ^ 33 * (2 / 2 ^ 100 + 2 / 2 ^ 153) + 1 / 2 ^ 200 ≤ 1 / 2 ^ 50 := by norm_num
  have e3 : (b ^ 2 + 1) * 1 / 2 ^ 50 = b ^ 2 * (1 / 2 ^ 50) + 1 / 2 ^ 50 := by ring
  rw [e3]
  linarith

/-- One of the coordinates of a corner. -/
def Within30 (x : ℚ) : Prop := 0 < x ∧ x < 2 ^ 30

theorem cornerDist_ok {M : MathLib} (hM : PowOk M.pow2) {p q p' q' : ℚ} (hp : Within30 p) (hq : Within30 q) (hp' : Within30 p') (hq' : Within30 q') :
    ∃ R : ℚ, cornerDist M (.fin p) (.fin q) (.fin p') (.fin q') = .ok (.fin R) ∧ 0 ≤ R ∧ R ≤ 2 ^ 31 ∧
      Near 40 ((p - p') ^ 2 + (q - q') ^ 2) (R ^ 2) := by
  obtain ⟨p0, p1⟩ := hp
  obtain ⟨q0, q1⟩ := hq
  obtain ⟨p0', p1'⟩ := hp'
  obtain ⟨q0', q1'⟩ := hq'
  have key : ∀ x y : ℚ, 0 < x → x < 2 ^ 30 → 0 < y → y < 2 ^ 30 → ∃ P, M.pow2 (Dbl.sub Fmt.b64 (.fin x) (.fin y)) = .fin P ∧ 0 ≤ P ∧
      Near 4 ((x - y) ^ 2) P ∧ (x - y) ^ 2 ≤ 2 ^ 60 := by
    intro x y x0 x1 y0 y1
    have hd : |x - y| ≤ 2 ^ 30 := by rw [abs_le]; constructor <;> linarith
    have es : Dbl.sub Fmt.b64 (.fin x) (.fin y) = .fin (Fmt.b64.rnd (x - y)) := by
      have := lift64 (x := x + -y) (k := 30) (by norm_num) (by rw [← sub_eq_add_neg]; exact hd)
      rw [sub_eq_add_neg]
      exact this
    have hr : |Fmt.b64.rnd (x - y)| ≤ 2 ^ 30 := rnd_abs_le _ hd (by
      have := rnd_zpow Fmt.b64 (e := 30) (by decide)
      exact_mod_cast this)
    obtain ⟨P, e, P0, hP⟩ := hM _ (hr.trans (by norm_num))
    refine ⟨P, by rw [es, e], P0, ?_, ?_⟩
    · refine Near.mono (by positivity) (Near.trans (by positivity) (by norm_num) (by norm_num)
        (near_sq (hd.trans (by norm_num)) rfl) (l := 1) ?_) (by norm_num)
      unfold Near
      refine hP.trans ?_
      have : (1 : ℚ) / 2 ^ 100 ≤ 1 / 2 ^ 50 := by norm_num
      push_cast
      rw [mul_one, add_div]
      linarith
    · rw [← sq_abs]
      calc |x - y| ^ 2 ≤ (2 ^ 30) ^ 2 := pow_le_pow_left₀ (abs_nonneg _) hd 2
        _ = 2 ^ 60 := by norm_num
  obtain ⟨A, eA, A0, nA, bA⟩ := key p p' p0 p1 p0' p1'
  obtain ⟨B, eB, B0, nB, bB⟩ := key q q' q0 q1 q0' q1'
  have dA0 : 0 ≤ (p - p') ^ 2 := sq_nonneg _
  have dB0 : 0 ≤ (q - q') ^ 2 := sq_nonneg _
  have nS := nA.add dA0 dB0 nB
  set D := (p - p') ^ 2 + (q - q') ^ 2 with hD
  have D0 : 0 ≤ D := by linarith
  have D1 : D ≤ 2 ^ 61 := by linarith
  have bAB : A + B ≤ 2 ^ 62 := by
    have := (abs_le.1 nS).2
    have : (D + 1) * ((2 * 4 : ℕ) : ℚ) / 2 ^ 50 ≤ (2 ^ 61 + 1) * ((2 * 4 : ℕ) : ℚ) / 2 ^ 50 :=
      div_le_div_of_nonneg_right (mul_le_mul_of_nonneg_right (by linarith) (by norm_num)) (by norm_num)
    have : (2 ^ 61 + 1 : ℚ) * ((2 * 4 : ℕ) : ℚ) / 2 ^ 50 ≤ 2 ^ 60 := by norm_num
    have : (2 : ℚ) ^ 61 + 2 ^ 60 ≤ 2 ^ 62 := by norm_num
    linarith
  have eS : Dbl.add Fmt.b64 (.fin A) (.fin B) = .fin (Fmt.b64.rnd (A + B)) :=
    lift64 (k := 62) (by norm_num) (by rw [abs_of_nonneg (by linarith)]; exact bAB)
  set S := Fmt.b64.rnd (A + B) with hS
  have S0 : 0 ≤ S := rnd_nonneg _ (by linarith)
  have S1 : S ≤ 2 ^ 62 := rnd_le _ bAB (by
    have := rnd_zpow Fmt.b64 (e := 62) (by decide)
    exact_mod_cast this)
  have nS2 : Near 10 D S := Near.mono D0 (Near.trans D0 (by norm_num) (by norm_num) nS (near_rnd (by linarith))) (by norm_num)
  have rep31 : Fmt.b64.Rep ((2147483648 : ℤ) : ℚ) := rep64_int (by norm_num)
  have T1 : sqrtMid S ≤ 2 ^ 31 := by
    have := sqrtMid_le rep31 (by norm_num) S0 (by push_cast; linarith)
    push_cast at this
    linarith
  have T0 := sqrtMid_nonneg S
  have nT : Near 1 S (sqrtMid S ^ 2) := by
    unfold Near
    refine (sqrtMid_sq S0).trans ?_
    have h1 : (sqrtMid S + 1) / 2 ^ 100 ≤ (2 ^ 31 + 1) / 2 ^ 100 := div_le_div_of_nonneg_right (by linarith) (by positivity)
    have h2 : ((2 : ℚ) ^ 31 + 1) / 2 ^ 100 ≤ 1 / 2 ^ 50 := by norm_num
    have h3 : (1 : ℚ) / 2 ^ 50 ≤ (S + 1) * ((1 : ℕ) : ℚ) / 2 ^ 50 := div_le_div_of_nonneg_right (by push_cast; linarith) (by positivity)
    linarith
  refine ⟨Fmt.b64.rnd (sqrtMid S), ?_, rnd_nonneg _ T0, rnd_le _ T1 (by
    have := rnd_zpow Fmt.b64 (e := 31) (by decide)
    exact_mod_cast this), ?_⟩
  · unfold cornerDist
    rw [eA, eB, eS]
    unfold sqrtDbl
    dsimp only
    rw [if_neg (not_lt.2 S0), f64sqrt_ok S0]
    rfl
  · have nR : Near 1 (sqrtMid S ^ 2) (Fmt.b64.rnd (sqrtMid S) ^ 2) :=
      near_sq (by rw [abs_of_nonneg T0]; exact T1.trans (by norm_num)) rfl
    have := Near.trans S0 (by norm_num) (by norm_num) nT nR
    exact Near.mono D0 (Near.trans D0 (by norm_num) (by norm_num) nS2 this) (by norm_num)

theorem fmax_fin {a b : ℚ} : fmaxDbl (.fin a) (.fin b) = .fin (max a b) := by
  unfold fmaxDbl Dbl.lt
  dsimp only
  by_cases h : a < b
  · rw [if_pos (by simpa using h), max_eq_right h.le]
  · rw [if_neg (by simpa using h), max_eq_left (not_lt.1 h)]

theorem documentSide_ok {a b x y : ℚ} (a0 : 0 ≤ a) (a1 : a ≤ 2 ^ 31) (b0 : 0 ≤ b) (b1 : b ≤ 2 ^ 31) (x0 : 0 ≤ x)
    (na : Near 40 x (a ^ 2)) (nb : Near 40 y (b ^ 2)) :
    ∃ n, documentSide (.fin a) (.fin b) = .ok n ∧ RoundedLength (max x y) n ∧ n ≤ 2147483649 := by
  have nR := na.max nb
  have em : max (a ^ 2) (b ^ 2) = max a b ^ 2 := by
    rcases le_total a b with h | h
    · rw [max_eq_right h, max_eq_right (pow_le_pow_left₀ a0 h 2)]
    · rw [max_eq_left h, max_eq_left (pow_le_pow_left₀ b0 h 2)]
  rw [em] at nR
  have L0 : 0 ≤ max x y := le_trans x0 (le_max_left _ _)
  have R0 : 0 ≤ max a b := le_trans a0 (le_max_left _ _)
  have R1 : max a b ≤ 2 ^ 31 := max_le a1 b1
  unfold documentSide
  rw [fmax_fin]
  generalize max a b = R at *
  generalize max x y = L at *
  have nR' := abs_le.1 nR
  push_cast at nR'
  have eV : Dbl.add Fmt.b64 (.fin R) (.fin (1 / 2)) = .fin (Fmt.b64.rnd (R + 1 / 2)) :=
    lift64 (k := 32) (by norm_num) (by rw [abs_of_nonneg (by linarith)]; linarith)
  rw [eV]
  have hV := rnd64_err (R + 1 / 2)
  rw [abs_of_nonneg (by linarith : (0 : ℚ) ≤ R + 1 / 2)] at hV
  have V0 : 0 ≤ Fmt.b64.rnd (R + 1 / 2) := rnd_nonneg _ (by linarith)
  have t := tiny1075
  have hV2 : |Fmt.b64.rnd (R + 1 / 2) - (R + 1 / 2)| ≤ 1 / 2 ^ 20 := by
    refine hV.trans ?_
    have h1 : (R + 1 / 2) / 2 ^ 53 ≤ (2 ^ 31 + 1 / 2) / 2 ^ 53 := div_le_div_of_nonneg_right (by linarith) (by positivity)
    have h2 : ((2 : ℚ) ^ 31 + 1 / 2) / 2 ^ 53 + 1 / 2 ^ 100 ≤ 1 / 2 ^ 20 := by norm_num
    linarith
  generalize Fmt.b64.rnd (R + 1 / 2) = V at *
  have hV3 := abs_le.1 hV2
  have V1 : V < 2147483650 := by
    have : (2 : ℚ) ^ 31 + 1 / 2 + 1 / 2 ^ 20 < 2147483650 := by norm_num
    linarith [hV3.2]
  have ht : trunc V = ⌊V⌋ := trunc_nonneg V0
  have f1 := Int.floor_le V
  have f2 := Int.lt_floor_add_one V
  have f0 : 0 ≤ ⌊V⌋ := Int.floor_nonneg.2 V0
  have f3 : ⌊V⌋ ≤ 2147483649 := by
    have : ⌊V⌋ < 2147483650 := Int.floor_lt.2 (by exact_mod_cast V1)
    omega
  change ∃ n, (castU32 V >>= fun n => (pure (if n < 100 then 100 else n) : CM ℕ)) = .ok n ∧ _
  unfold castU32
  rw [castInt_ok (by rw [ht]; omega) (by rw [ht]; omega), ht]
  obtain ⟨n, hn⟩ := Int.eq_ofNat_of_zero_le f0
  rw [hn] at f1 f2 f3 ⊢
  have f3' : n ≤ 2147483649 := by exact_mod_cast f3
  push_cast at f1 f2
  refine ⟨if n < 100 then 100 else n, rfl, ?_, ?_⟩
  · have hnq : (n : ℚ) ≤ 2147483649 := by exact_mod_cast f3'
    have n0 : (0 : ℚ) ≤ n := by positivity
    refine ⟨by split <;> omega, ?_, ?_⟩
    · have hup : L ≤ ((n : ℚ) + 1 / 2 + 1 / 1000) ^ 2 := by
        have hRn : R ≤ (n : ℚ) + 1 / 2 + 1 / 2 ^ 20 := by linarith [hV3.1]
        have hR2 : R ^ 2 ≤ ((n : ℚ) + 1 / 2 + 1 / 2 ^ 20) ^ 2 := pow_le_pow_left₀ R0 hRn 2
        have h1 : L * (1 - 40 / 2 ^ 50) ≤ ((n : ℚ) + 1 / 2 + 1 / 2 ^ 20) ^ 2 + 40 / 2 ^ 50 := by
          have e : (L + 1) * 40 / 2 ^ 50 = L * (40 / 2 ^ 50) + 40 / 2 ^ 50 := by ring
          rw [e] at nR'
          linarith [nR'.1]
        by_contra hc
        push Not at hc
        have h2 : ((n : ℚ) + 1 / 2 + 1 / 1000) ^ 2 * (1 - 40 / 2 ^ 50) < L * (1 - 40 / 2 ^ 50) :=
          mul_lt_mul_of_pos_right hc (by norm_num)
        nlinarith
      refine hup.trans (pow_le_pow_left₀ (by positivity) ?_ 2)
      split
      · have : (n : ℚ) ≤ 100 := by exact_mod_cast (by omega : n ≤ 100)
        push_cast
        linarith
      · exact le_refl _
    · intro h
      have hn : ¬ n < 100 := by
        intro hlt
        rw [if_pos hlt] at h
        omega
      rw [if_neg hn] at h ⊢
      have hnn : (100 : ℚ) ≤ n := by exact_mod_cast (by omega : 100 ≤ n)
      have hRn : (n : ℚ) - 1 / 2 - 1 / 2 ^ 20 ≤ R := by linarith [hV3.2]
      have hR2 : ((n : ℚ) - 1 / 2 - 1 / 2 ^ 20) ^ 2 ≤ R ^ 2 := pow_le_pow_left₀ (by norm_num; linarith) hRn 2
      have h1 : ((n : ℚ) - 1 / 2 - 1 / 2 ^ 20) ^ 2 ≤ L * (1 + 40 / 2 ^ 50) + 40 / 2 ^ 50 := by
        have e : (L + 1) * 40 / 2 ^ 50 = L * (40 / 2 ^ 50) + 40 / 2 ^ 50 := by ring
        rw [e] at nR'
        linarith [nR'.2]
      by_contra hc
      push Not at hc
      have h2 : L * (1 + 40 / 2 ^ 50) < ((n : ℚ) - 1 / 2 - 1 / 1000) ^ 2 * (1 + 40 / 2 ^ 50) :=
        mul_lt_mul_of_pos_right hc (by norm_num)
      nlinarith
  · split <;> omega

/-- Finite corners within `2^30` have a document size. -/
theorem documentSize_ok {M : MathLib} (hM : PowOk M.pow2) {k : Corners Dbl} {a b c d e f g h : ℚ}
    (hk : k = ⟨.fin a, .fin b, .fin c, .fin d, .fin e, .fin f, .fin g, .fin h⟩) (ha : Within30 a) (hb : Within30 b) (hc : Within30 c)
    (hd : Within30 d) (he : Within30 e) (hf : Within30 f) (hg : Within30 g) (hh : Within30 h) :
    ∃ W H, documentSize M k = .ok (W, H) ∧ DocumentSize k W H ∧ W ≤ 2147483649 ∧ H ≤ 2147483649 := by
  subst hk
  obtain ⟨t, et, t0, t1, nt⟩ := cornerDist_ok hM hc hd ha hb
  obtain ⟨u, eu, u0, u1, nu⟩ := cornerDist_ok hM he hf hg hh
  obtain ⟨v, ev, v0, v1, nv⟩ := cornerDist_ok hM hg hh ha hb
  obtain ⟨w, ew, w0, w1, nw⟩ := cornerDist_ok hM he hf hc hd
  obtain ⟨W, eW, hW, bW⟩ := documentSide_ok t0 t1 u0 u1 (by positivity) nt nu
  obtain ⟨H, eH, hH, bH⟩ := documentSide_ok v0 v1 w0 w1 (by positivity) nv nw
  refine ⟨W, H, ?_, ?_, bW, bH⟩
  · unfold documentSize
    rw [et, ok_bind, eu, ok_bind, ev, ok_bind, ew, ok_bind, eW, ok_bind, eH, ok_bind]
    rfl
  · exact ⟨_, _, _, _, ⟨a, b, c, d, rfl, rfl, rfl, rfl, by ring⟩, ⟨g, h, e, f, rfl, rfl, rfl, rfl, by ring⟩,
      ⟨a, b, g, h, rfl, rfl, rfl, rfl, by ring⟩, ⟨c, d, e, f, rfl, rfl, rfl, rfl, by ring⟩, hW, hH⟩

end FlatCV
